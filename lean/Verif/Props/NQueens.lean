import Mathlib.Algebra.Order.BigOperators.Group.Finset
import Mathlib.Data.List.Nodup
import Mathlib.Tactic.Linarith
import Mathlib.Tactic.Ring
import Verif.Spec.NQueens

/-!
# C59: the n-queens example encodes n-queens
-/

namespace Bx.NQueens

theorem queensOn_le_one {x : Board} {l : List (Int × Int)} (hn : l.Nodup) :
    queensOn x l ≤ 1 ↔ ∀ p ∈ l, ∀ q ∈ l, x p.1 p.2 = true → x q.1 q.2 = true → p = q := by
  have hz : ∀ l : List (Int × Int), queensOn x l = 0 ↔ ∀ p ∈ l, x p.1 p.2 = false := by
    intro l
    induction l with
    | nil => simp [queensOn]
    | cons p l ih =>
      unfold queensOn at ih ⊢
      cases hp : x p.1 p.2 <;> simp_all
  induction l with
  | nil => simp [queensOn]
  | cons a l ih =>
    have hc := List.nodup_cons.mp hn
    have he : queensOn x (a :: l) = (if x a.1 a.2 then 1 else 0) + queensOn x l := by
      simp [queensOn]
    rw [he]
    cases ha : x a.1 a.2 with
    | false =>
      simp only [Bool.false_eq_true, if_false, Nat.zero_add]
      refine (ih hc.2).trans ?_
      constructor
      · intro h p hp q hq h1 h2
        rcases List.mem_cons.mp hp with rfl | hp
        · rw [ha] at h1; exact absurd h1 (by simp)
        rcases List.mem_cons.mp hq with rfl | hq
        · rw [ha] at h2; exact absurd h2 (by simp)
        exact h p hp q hq h1 h2
      · intro h p hp q hq
        exact h p (List.mem_cons_of_mem _ hp) q (List.mem_cons_of_mem _ hq)
    | true =>
      simp only [if_true]
      have : 1 + queensOn x l ≤ 1 ↔ queensOn x l = 0 := by omega
      rw [this, hz l]
      constructor
      · intro h p hp q hq h1 h2
        rcases List.mem_cons.mp hp with rfl | hp
        · rcases List.mem_cons.mp hq with rfl | hq
          · rfl
          · rw [h q hq] at h2; exact absurd h2 (by simp)
        · rw [h p hp] at h1; exact absurd h1 (by simp)
      · intro h p hp
        cases hx : x p.1 p.2 with
        | false => rfl
        | true =>
          have := h a List.mem_cons_self p (List.mem_cons_of_mem _ hp) ha hx
          rw [← this] at hp
          exact absurd hp hc.1

theorem mem_upTo {a b : Nat} {z : Int} : z ∈ upTo a b ↔ (a : Int) ≤ z ∧ z < b := by
  unfold upTo
  simp only [List.mem_map, List.mem_range]
  constructor
  · rintro ⟨k, hk, rfl⟩; omega
  · intro ⟨h1, h2⟩
    exact ⟨(z - a).toNat, by omega, by omega⟩

theorem upTo_nodup (a b : Nat) : (upTo a b).Nodup := by
  unfold upTo
  exact List.Nodup.map (fun k l h => by omega) List.nodup_range

theorem sum_upTo (n : Nat) (f : Int → Nat) :
    ((upTo 0 n).map f).sum = ∑ k ∈ Finset.range n, f k := by
  unfold upTo
  simp only [Nat.sub_zero, Nat.zero_add, List.map_map]
  induction n with
  | zero => simp
  | succ n ih =>
    rw [List.range_succ, List.map_append, List.sum_append, ih, Finset.sum_range_succ]
    simp

theorem mem_walk_fst_ge {cond : Int → Bool} {step : Int} : ∀ {left : Nat} {i j a b : Int},
    (a, b) ∈ walk cond step left i j → j ≤ b
  | 0, _, _, _, _, h => by simp [walk] at h
  | left + 1, i, j, a, b, h => by
    unfold walk at h
    split at h
    · rcases List.mem_cons.mp h with h | h
      · rw [Prod.mk.injEq] at h; omega
      · have := mem_walk_fst_ge h; omega
    · simp at h

theorem walk_nodup (cond : Int → Bool) (step : Int) : ∀ (left : Nat) (i j : Int),
    (walk cond step left i j).Nodup
  | 0, _, _ => List.nodup_nil
  | left + 1, i, j => by
    unfold walk
    split
    · refine List.nodup_cons.mpr ⟨fun h => ?_, walk_nodup cond step left _ _⟩
      have := mem_walk_fst_ge h
      omega
    · exact List.nodup_nil

/-- The cells of a loop that goes up: those of the diagonal that start at `(i, j)`. -/
theorem mem_walk_up {cond : Int → Bool} (hc : ∀ z, cond z = false → cond (z + 1) = false) :
    ∀ {left : Nat} {i j a b : Int}, (a, b) ∈ walk cond 1 left i j ↔
      a - b = i - j ∧ j ≤ b ∧ b < j + left ∧ cond a = true
  | 0, i, j, a, b => by
    constructor
    · intro h; simp [walk] at h
    · rintro ⟨_, h1, h2, _⟩; omega
  | left + 1, i, j, a, b => by
    have down : ∀ k : Nat, ∀ z, cond z = false → cond (z + k) = false := by
      intro k
      induction k with
      | zero => intro z h; simpa using h
      | succ k ih =>
        intro z h
        have := hc _ (ih z h)
        rw [show z + ((k + 1 : Nat) : Int) = z + k + 1 by push_cast; ring]
        exact this
    unfold walk
    split
    · rename_i hi
      rw [List.mem_cons, mem_walk_up hc, Prod.mk.injEq]
      constructor
      · rintro (⟨rfl, rfl⟩ | ⟨h1, h2, h3, h4⟩)
        · exact ⟨rfl, le_refl _, by omega, hi⟩
        · exact ⟨by omega, by omega, by push_cast; omega, h4⟩
      · rintro ⟨h1, h2, h3, h4⟩
        by_cases hj : b = j
        · left; exact ⟨by omega, hj⟩
        · right; exact ⟨by omega, by omega, by push_cast at h3; omega, h4⟩
    · rename_i hi
      constructor
      · intro h; simp at h
      · rintro ⟨h1, h2, h3, h4⟩
        have := down (b - j).toNat i (by simpa using hi)
        rw [show i + (((b - j).toNat : Nat) : Int) = a by omega, h4] at this
        exact absurd this (by simp)

/-- The cells of a loop that goes down. -/
theorem mem_walk_down {cond : Int → Bool} (hc : ∀ z, cond z = false → cond (z - 1) = false) :
    ∀ {left : Nat} {i j a b : Int}, (a, b) ∈ walk cond (-1) left i j ↔
      a + b = i + j ∧ j ≤ b ∧ b < j + left ∧ cond a = true
  | 0, i, j, a, b => by
    constructor
    · intro h; simp [walk] at h
    · rintro ⟨_, h1, h2, _⟩; omega
  | left + 1, i, j, a, b => by
    have down : ∀ k : Nat, ∀ z, cond z = false → cond (z - k) = false := by
      intro k
      induction k with
      | zero => intro z h; simpa using h
      | succ k ih =>
        intro z h
        have := hc _ (ih z h)
        rw [show z - ((k + 1 : Nat) : Int) = z - k - 1 by push_cast; ring]
        exact this
    unfold walk
    split
    · rename_i hi
      rw [List.mem_cons, mem_walk_down hc, Prod.mk.injEq]
      constructor
      · rintro (⟨rfl, rfl⟩ | ⟨h1, h2, h3, h4⟩)
        · exact ⟨rfl, le_refl _, by omega, hi⟩
        · exact ⟨by omega, by omega, by push_cast; omega, h4⟩
      · rintro ⟨h1, h2, h3, h4⟩
        by_cases hj : b = j
        · left; exact ⟨by omega, hj⟩
        · right; exact ⟨by omega, by omega, by push_cast at h3; omega, h4⟩
    · rename_i hi
      constructor
      · intro h; simp at h
      · rintro ⟨h1, h2, h3, h4⟩
        have := down (b - j).toNat i (by simpa using hi)
        rw [show i - (((b - j).toNat : Nat) : Int) = a by omega, h4] at this
        exact absurd this (by simp)

/-! ## The six groups of constraints -/

theorem lt_stable (n : Nat) (z : Int) (h : decide (z < (n : Int)) = false) :
    decide (z + 1 < (n : Int)) = false := by
  simp only [decide_eq_false_iff_not] at h ⊢; omega

theorem nonneg_up {z : Int} {left : Nat} {j a b : Int} (hj : 0 ≤ j) :
    (a, b) ∈ walk (fun i => decide (0 ≤ i)) 1 left z j ∧ 0 ≤ z ↔
      a - b = z - j ∧ j ≤ b ∧ b < j + left ∧ 0 ≤ z := by
  induction left generalizing z j with
  | zero =>
    constructor
    · intro h; simp [walk] at h
    · rintro ⟨_, h1, h2, _⟩; omega
  | succ left ih =>
    unfold walk
    by_cases hz : 0 ≤ z
    · have := ih (z := z + 1) (j := j + 1) (by omega)
      simp only [hz, decide_true, if_true, and_true, List.mem_cons, Prod.mk.injEq]
      have h1 : 0 ≤ z + 1 := by omega
      simp only [h1, and_true] at this
      rw [this]
      push_cast
      constructor
      · rintro (⟨rfl, rfl⟩ | ⟨h1, h2, h3⟩) <;> refine ⟨by omega, by omega, by omega⟩
      · rintro ⟨h1, h2, h3⟩
        by_cases hj : b = j
        · left; exact ⟨by omega, hj⟩
        · right; exact ⟨by omega, by omega, by omega⟩
    · simp [hz]

theorem neg_stable (z : Int) (h : decide (0 ≤ z) = false) : decide (0 ≤ z - 1) = false := by
  simp only [decide_eq_false_iff_not] at h ⊢; omega

/-- At most one queen on each set of cells given by `P`. -/
def AtMostOne (x : Board) (P : Int → Int → Prop) : Prop :=
  ∀ i j k l, P i j → P k l → x i j = true → x k l = true → i = k ∧ j = l

theorem atMostOne_iff {x : Board} {l : List (Int × Int)} {P : Int → Int → Prop} (hn : l.Nodup)
    (h : ∀ a b, (a, b) ∈ l ↔ P a b) : queensOn x l ≤ 1 ↔ AtMostOne x P := by
  rw [queensOn_le_one hn]
  constructor
  · intro g i j k l hi hk h1 h2
    have := g (i, j) ((h i j).mpr hi) (k, l) ((h k l).mpr hk) h1 h2
    exact ⟨congrArg Prod.fst this, congrArg Prod.snd this⟩
  · intro g p hp q hq h1 h2
    have := g p.1 p.2 q.1 q.2 ((h _ _).mp hp) ((h _ _).mp hq) h1 h2
    exact Prod.ext this.1 this.2

/-- The difference of the coordinates of the cells of a diagonal. -/
def Diag (n : Nat) (d : Int) (i j : Int) : Prop := OnBoard n i j ∧ i - j = d

def Anti (n : Nat) (d : Int) (i j : Int) : Prop := OnBoard n i j ∧ i + j = d

theorem diagLeft_holds {n : Nat} {x : Board} :
    (∀ c ∈ diagLeft n, c.Holds x) ↔ ∀ d : Int, 1 ≤ d → d < n - 1 → AtMostOne x (Diag n d) := by
  unfold diagLeft
  simp only [List.forall_mem_map, mem_upTo, Line.Holds]
  refine forall_congr' fun d => ?_
  have key : ∀ h : 1 ≤ d, queensOn x (walk (fun i => decide (i < (n : Int))) 1 n d 0) ≤ 1 ↔
      AtMostOne x (Diag n d) := by
    intro h
    apply atMostOne_iff (walk_nodup _ _ _ _ _)
    intro a b
    rw [mem_walk_up (lt_stable n)]
    unfold Diag OnBoard
    simp only [decide_eq_true_eq]
    omega
  constructor
  · intro h h1 h2
    exact (key h1).mp (h ⟨by push_cast; omega, by omega⟩)
  · rintro h ⟨h1, h2⟩
    exact (key (by push_cast at h1; omega)).mpr (h (by push_cast at h1; omega) (by omega))

theorem diagTop_holds {n : Nat} {x : Board} :
    (∀ c ∈ diagTop n, c.Holds x) ↔ ∀ d : Int, 0 ≤ d → d < n - 1 → AtMostOne x (Diag n (-d)) := by
  unfold diagTop
  simp only [List.forall_mem_map, mem_upTo, Line.Holds]
  refine forall_congr' fun d => ?_
  have key : ∀ h : 0 ≤ d, queensOn x (walk (fun i => decide (0 ≤ i)) 1 (n - d.toNat) 0 d) ≤ 1 ↔
      AtMostOne x (Diag n (-d)) := by
    intro h
    apply atMostOne_iff (walk_nodup _ _ _ _ _)
    intro a b
    have := nonneg_up (z := 0) (left := n - d.toNat) (a := a) (b := b) h
    simp only [le_refl, and_true] at this
    rw [this]
    unfold Diag OnBoard
    omega
  constructor
  · intro h h1 h2
    exact (key h1).mp (h ⟨by push_cast; omega, by omega⟩)
  · rintro h ⟨h1, h2⟩
    exact (key (by push_cast at h1; omega)).mpr (h (by push_cast at h1; omega) (by omega))

theorem antiLeft_holds {n : Nat} {x : Board} :
    (∀ c ∈ antiLeft n, c.Holds x) ↔ ∀ d : Int, 1 ≤ d → d < n → AtMostOne x (Anti n d) := by
  unfold antiLeft
  simp only [List.forall_mem_map, mem_upTo, Line.Holds]
  refine forall_congr' fun d => ?_
  have key : ∀ h : d < n, queensOn x (walk (fun i => decide (0 ≤ i)) (-1) n d 0) ≤ 1 ↔
      AtMostOne x (Anti n d) := by
    intro h
    apply atMostOne_iff (walk_nodup _ _ _ _ _)
    intro a b
    rw [mem_walk_down neg_stable]
    unfold Anti OnBoard
    simp only [decide_eq_true_eq]
    omega
  constructor
  · intro h h1 h2
    exact (key h2).mp (h ⟨by push_cast; omega, by omega⟩)
  · rintro h ⟨h1, h2⟩
    exact (key h2).mpr (h (by push_cast at h1; omega) (by omega))

theorem antiBottom_holds {n : Nat} {x : Board} :
    (∀ c ∈ antiBottom n, c.Holds x) ↔
      ∀ d : Int, 1 ≤ d → d < n - 1 → AtMostOne x (Anti n (n - 1 + d)) := by
  unfold antiBottom
  simp only [List.forall_mem_map, mem_upTo, Line.Holds]
  refine forall_congr' fun d => ?_
  have key : ∀ h : 1 ≤ d,
      queensOn x (walk (fun i => decide (0 ≤ i)) (-1) (n - d.toNat) (n - 1) d) ≤ 1 ↔
      AtMostOne x (Anti n (n - 1 + d)) := by
    intro h
    apply atMostOne_iff (walk_nodup _ _ _ _ _)
    intro a b
    rw [mem_walk_down neg_stable]
    unfold Anti OnBoard
    simp only [decide_eq_true_eq]
    omega
  constructor
  · intro h h1 h2
    exact (key h1).mp (h ⟨by push_cast; omega, by omega⟩)
  · rintro h ⟨h1, h2⟩
    exact (key (by push_cast at h1; omega)).mpr (h (by push_cast at h1; omega) (by omega))

/-- No two queens attack each other. -/
def Peaceful (n : Nat) (x : Board) : Prop :=
  ∀ i j k l, OnBoard n i j → OnBoard n k l → x i j = true → x k l = true →
    Attacks i j k l → i = k ∧ j = l

theorem rowQueens_eq (n : Nat) (x : Board) (i : Int) :
    queensOn x ((upTo 0 n).map fun j => (i, j)) =
      ∑ j ∈ Finset.range n, if x i j then 1 else 0 := by
  unfold queensOn
  rw [List.map_map]
  exact sum_upTo n fun j => if x i j then 1 else 0

theorem colQueens_eq (n : Nat) (x : Board) (j : Int) :
    queensOn x ((upTo 0 n).map fun i => (i, j)) =
      ∑ i ∈ Finset.range n, if x i j then 1 else 0 := by
  unfold queensOn
  rw [List.map_map]
  exact sum_upTo n fun i => if x i j then 1 else 0

theorem row_nodup (n : Nat) (i : Int) : ((upTo 0 n).map fun j => (i, j)).Nodup :=
  List.Nodup.map (fun _ _ h => congrArg Prod.snd h) (upTo_nodup 0 n)

theorem col_nodup (n : Nat) (j : Int) : ((upTo 0 n).map fun i => (i, j)).Nodup :=
  List.Nodup.map (fun _ _ h => congrArg Prod.fst h) (upTo_nodup 0 n)

theorem sum_eq_card {n : Nat} {f : Nat → Nat} (h : ∀ i < n, f i ≤ 1)
    (hs : ∑ i ∈ Finset.range n, f i = n) : ∀ i < n, f i = 1 := by
  have h1 : ∑ i ∈ Finset.range n, f i = ∑ i ∈ Finset.range n, 1 := by simpa using hs
  have := (Finset.sum_eq_sum_iff_of_le fun i hi => h i (Finset.mem_range.mp hi)).mp h1
  exact fun i hi => this i (Finset.mem_range.mpr hi)

/-- C59: for every size from 3 and every placement, the constraints that the n-queens
example writes are all satisfied if and only if the placement has `n` queens and no two of
them attack each other. -/
theorem C59_n_queens (n : Nat) (h3 : 3 ≤ n) :
    ∃ ls, lines n = .ok ls ∧ ∀ x : Board, (∀ l ∈ ls, l.Holds x) ↔ Solution n x := by
  refine ⟨_, if_neg (by omega), fun x => ?_⟩
  simp only [List.forall_mem_append]
  rw [diagLeft_holds, diagTop_holds, antiLeft_holds, antiBottom_holds]
  have hrows : (∀ l ∈ rowLines n, l.Holds x) ↔
      ∀ i < n, ∑ j ∈ Finset.range n, (if x i j then 1 else 0) = 1 := by
    unfold rowLines
    simp only [List.forall_mem_map, mem_upTo, Line.Holds, rowQueens_eq]
    constructor
    · intro h i hi; exact h i ⟨by simp, by omega⟩
    · rintro h i ⟨h1, h2⟩
      obtain ⟨k, rfl⟩ := Int.eq_ofNat_of_zero_le h1
      exact h k (by omega)
  have hcols : (∀ l ∈ columnLines n, l.Holds x) ↔
      ∀ j < n, ∑ i ∈ Finset.range n, (if x i j then 1 else 0) = 1 := by
    unfold columnLines
    simp only [List.forall_mem_map, mem_upTo, Line.Holds, colQueens_eq]
    constructor
    · intro h i hi; exact h i ⟨by simp, by omega⟩
    · rintro h i ⟨h1, h2⟩
      obtain ⟨k, rfl⟩ := Int.eq_ofNat_of_zero_le h1
      exact h k (by omega)
  have hrow1 : ∀ i : Nat, (∑ j ∈ Finset.range n, (if x i j then 1 else 0)) ≤ 1 ↔
      ∀ j k : Int, 0 ≤ j → j < n → 0 ≤ k → k < n → x i j = true → x i k = true → j = k := by
    intro i
    rw [← rowQueens_eq, atMostOne_iff (P := fun a b => a = i ∧ 0 ≤ b ∧ b < n) (row_nodup n i)]
    · constructor
      · intro h j k h1 h2 h3 h4 h5 h6
        exact (h i j i k ⟨rfl, h1, h2⟩ ⟨rfl, h3, h4⟩ h5 h6).2
      · rintro h a b c d ⟨rfl, h1, h2⟩ ⟨rfl, h3, h4⟩ h5 h6
        exact ⟨rfl, h b d h1 h2 h3 h4 h5 h6⟩
    · intro a b
      simp only [List.mem_map, mem_upTo, Prod.mk.injEq]
      constructor
      · rintro ⟨j, hj, rfl, rfl⟩; exact ⟨rfl, by simpa using hj⟩
      · rintro ⟨rfl, hb⟩; exact ⟨b, by simpa using hb, rfl, rfl⟩
  have hcol1 : ∀ j : Nat, (∑ i ∈ Finset.range n, (if x i j then 1 else 0)) ≤ 1 ↔
      ∀ i k : Int, 0 ≤ i → i < n → 0 ≤ k → k < n → x i j = true → x k j = true → i = k := by
    intro j
    rw [← colQueens_eq, atMostOne_iff (P := fun a b => b = j ∧ 0 ≤ a ∧ a < n) (col_nodup n j)]
    · constructor
      · intro h i k h1 h2 h3 h4 h5 h6
        exact (h i j k j ⟨rfl, h1, h2⟩ ⟨rfl, h3, h4⟩ h5 h6).1
      · rintro h a b c d ⟨rfl, h1, h2⟩ ⟨rfl, h3, h4⟩ h5 h6
        exact ⟨h a c h1 h2 h3 h4 h5 h6, rfl⟩
    · intro a b
      simp only [List.mem_map, mem_upTo, Prod.mk.injEq]
      constructor
      · rintro ⟨i, hi, rfl, rfl⟩; exact ⟨rfl, by simpa using hi⟩
      · rintro ⟨rfl, ha⟩; exact ⟨a, by simpa using ha, rfl, rfl⟩
  rw [hrows, hcols]
  constructor
  · rintro ⟨⟨⟨⟨⟨hr, hc⟩, hdl⟩, hdt⟩, hal⟩, hab⟩
    refine ⟨?_, ?_⟩
    · unfold queens
      rw [Finset.sum_congr rfl fun i hi => hr i (Finset.mem_range.mp hi)]
      simp
    · intro i j k l hij hkl h1 h2 ha
      have hij' := hij
      have hkl' := hkl
      obtain ⟨hi0, hin, hj0, hjn⟩ := hij
      obtain ⟨hk0, hkn, hl0, hln⟩ := hkl
      rcases ha with ha | ha | ha | ha
      · subst ha
        obtain ⟨m, rfl⟩ := Int.eq_ofNat_of_zero_le hi0
        exact ⟨rfl, (hrow1 m).mp (hr m (by omega)).le j l hj0 hjn hl0 hln h1 h2⟩
      · subst ha
        obtain ⟨m, rfl⟩ := Int.eq_ofNat_of_zero_le hj0
        exact ⟨(hcol1 m).mp (hc m (by omega)).le i k hi0 hin hk0 hkn h1 h2, rfl⟩
      · by_cases hd : 1 ≤ i - j
        · by_cases hd2 : i - j < n - 1
          · exact hdl (i - j) hd hd2 i j k l ⟨hij', rfl⟩ ⟨hkl', ha.symm⟩ h1 h2
          · exact ⟨by omega, by omega⟩
        · by_cases hd2 : j - i < n - 1
          · exact hdt (j - i) (by omega) hd2 i j k l ⟨hij', by omega⟩ ⟨hkl', by omega⟩ h1 h2
          · exact ⟨by omega, by omega⟩
      · by_cases hd : 1 ≤ i + j
        · by_cases hd2 : i + j < n
          · exact hal (i + j) hd hd2 i j k l ⟨hij', rfl⟩ ⟨hkl', ha.symm⟩ h1 h2
          · by_cases hd3 : i + j - (n - 1) < n - 1
            · exact hab (i + j - (n - 1)) (by omega) hd3 i j k l ⟨hij', by omega⟩
                ⟨hkl', by omega⟩ h1 h2
            · exact ⟨by omega, by omega⟩
        · exact ⟨by omega, by omega⟩
  · rintro ⟨hn, hp⟩
    have hr : ∀ i < n, (∑ j ∈ Finset.range n, (if x i j then 1 else 0)) ≤ 1 := by
      intro i hi
      rw [hrow1]
      intro j k h1 h2 h3 h4 h5 h6
      exact (hp i j i k ⟨by omega, by omega, h1, h2⟩ ⟨by omega, by omega, h3, h4⟩ h5 h6
        (Or.inl rfl)).2
    have hc : ∀ j < n, (∑ i ∈ Finset.range n, (if x i j then 1 else 0)) ≤ 1 := by
      intro j hj
      rw [hcol1]
      intro i k h1 h2 h3 h4 h5 h6
      exact (hp i j k j ⟨h1, h2, by omega, by omega⟩ ⟨h3, h4, by omega, by omega⟩ h5 h6
        (Or.inr (Or.inl rfl))).1
    have hdiag : ∀ d, AtMostOne x (Diag n d) := by
      rintro d i j k l ⟨h1, h2⟩ ⟨h3, h4⟩ h5 h6
      exact hp i j k l h1 h3 h5 h6 (Or.inr (Or.inr (Or.inl (by omega))))
    have hanti : ∀ d, AtMostOne x (Anti n d) := by
      rintro d i j k l ⟨h1, h2⟩ ⟨h3, h4⟩ h5 h6
      exact hp i j k l h1 h3 h5 h6 (Or.inr (Or.inr (Or.inr (by omega))))
    refine ⟨⟨⟨⟨⟨sum_eq_card hr hn, sum_eq_card hc ?_⟩, fun d _ _ => hdiag d⟩,
      fun d _ _ => hdiag _⟩, fun d _ _ => hanti d⟩, fun d _ _ => hanti _⟩
    rw [Finset.sum_comm]
    exact hn

/-- C59: sizes under 3 are refused. -/
theorem C59_small_sizes (n : Nat) (h : n < 3) : lines n = .error (.exn "n_queens_problem") :=
  if_pos h

/-- The two solutions for 4 queens include this one: columns 1, 3, 0, 2. -/
example : ∃ ls, lines 4 = .ok ls ∧
    ∀ l ∈ ls, l.Holds fun i j => decide ((i, j) ∈ [((0 : Int), (1 : Int)), (1, 3), (2, 0), (3, 2)]) := by
  refine ⟨_, rfl, ?_⟩
  intro l hl
  have : ∀ l ∈ (rowLines 4 ++ columnLines 4 ++ diagLeft 4 ++ diagTop 4 ++ antiLeft 4 ++
      antiBottom 4), (match l.rel with
        | .eqOne => decide (queensOn (fun i j => decide ((i, j) ∈
          [((0 : Int), (1 : Int)), (1, 3), (2, 0), (3, 2)])) l.cells = 1)
        | .leOne => decide (queensOn (fun i j => decide ((i, j) ∈
          [((0 : Int), (1 : Int)), (1, 3), (2, 0), (3, 2)])) l.cells ≤ 1)) = true := by
    decide +kernel
  have := this l hl
  unfold Line.Holds
  split at this <;> simp_all

end Bx.NQueens
