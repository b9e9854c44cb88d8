import Verif.Model.BranchBound
import Verif.Proofs.Exhaustive

/-! Lemmas on the branch-and-bound sub-solver. -/

namespace Bx.BranchBound

open Exhaustive Spec

/-! ## Sums over the bits -/

/-- Sum of the factors of the items whose bit is set. -/
def fsum : List Item → List Bool → Int
  | i :: is, b :: bs => (if b then i.factor else 0) + fsum is bs
  | _, _ => 0

/-- Sum of the values of the items whose bit is set, added to `z` one by one. -/
def rgo (rnd : Rat → Rat) : Rat → List Item → List Bool → Rat
  | z, i :: is, b :: bs => rgo rnd (if b then rnd (z + i.r) else z) is bs
  | z, _, _ => z

/-- Sum of the values of the items whose bit is set: the first value is taken as it
is, the others are added one by one. -/
def rsum (rnd : Rat → Rat) : List Item → List Bool → Rat
  | i :: is, b :: bs => rgo rnd (if b then i.r else 0) is bs
  | _, _ => 0

theorem fsum_set : ∀ {items : List Item} {bits : List Bool} {l : Nat} {it : Item},
    items[l]? = some it → bits[l]? = some false →
    fsum items (bits.set l true) = fsum items bits + it.factor
  | [], _, l, _, h, _ => by simp at h
  | _ :: _, [], l, _, _, h => by simp at h
  | i :: is, b :: bs, 0, it, h, hb => by
    simp only [List.getElem?_cons_zero, Option.some.injEq] at h hb
    subst h; subst hb
    simp [fsum, add_comm]
  | i :: is, b :: bs, l + 1, it, h, hb => by
    rw [List.getElem?_cons_succ] at h hb
    rw [List.set_cons_succ]
    simp only [fsum, fsum_set h hb]
    ring

theorem rgo_clear {rnd : Rat → Rat} : ∀ {items : List Item} {bits : List Bool} {z : Rat},
    (∀ i : Nat, i < items.length → bits[i]? = some false) → rgo rnd z items bits = z
  | [], _, _, _ => by simp [rgo]
  | _ :: _, [], _, _ => by simp [rgo]
  | i :: is, b :: bs, z, h => by
    have h0 := h 0 (by simp)
    simp only [List.getElem?_cons_zero, Option.some.injEq] at h0
    subst h0
    rw [rgo]
    exact rgo_clear fun j hj => by
      have := h (j + 1) (by simpa using hj)
      rwa [List.getElem?_cons_succ] at this

theorem rgo_set {rnd : Rat → Rat} : ∀ {items : List Item} {bits : List Bool} {l : Nat} {it : Item}
    {z : Rat}, items[l]? = some it →
    (∀ i : Nat, l ≤ i → i < items.length → bits[i]? = some false) →
    rgo rnd z items (bits.set l true) = rnd (rgo rnd z items bits + it.r)
  | [], _, l, _, _, h, _ => by simp at h
  | _ :: _, [], l, _, _, h, hb => by
    have := (List.getElem?_eq_some_iff.mp h).1
    have := hb l (le_refl _) this
    simp at this
  | i :: is, b :: bs, 0, it, z, h, hb => by
    have hc : ∀ j : Nat, j < is.length → bs[j]? = some false := fun j hj => by
      have := hb (j + 1) (by omega) (by simpa using hj)
      rwa [List.getElem?_cons_succ] at this
    have h0 := hb 0 (by omega) (by simp)
    simp only [List.getElem?_cons_zero, Option.some.injEq] at h h0
    subst h; subst h0
    rw [List.set_cons_zero, rgo, rgo, rgo_clear hc, rgo_clear hc]
    simp
  | i :: is, b :: bs, l + 1, it, z, h, hb => by
    rw [List.getElem?_cons_succ] at h
    rw [List.set_cons_succ, rgo, rgo]
    exact rgo_set h fun j hj hl => by
      have := hb (j + 1) (by omega) (by simpa using hl)
      rwa [List.getElem?_cons_succ] at this

theorem rsum_set {rnd : Rat → Rat} {items : List Item} {bits : List Bool} {l : Nat} {it : Item}
    (h : items[l + 1]? = some it)
    (hb : ∀ i : Nat, l + 1 ≤ i → i < items.length → bits[i]? = some false) :
    rsum rnd items (bits.set (l + 1) true) = rnd (rsum rnd items bits + it.r) := by
  cases items with
  | nil => simp at h
  | cons i is =>
    cases bits with
    | nil =>
      have := hb (l + 1) (le_refl _) (List.getElem?_eq_some_iff.mp h).1
      simp at this
    | cons b bs =>
      rw [List.getElem?_cons_succ] at h
      rw [List.set_cons_succ, rsum, rsum]
      exact rgo_set h fun j hj hl => by
        have := hb (j + 1) (by omega) (by simpa using hl)
        rwa [List.getElem?_cons_succ] at this

theorem fsum_zero : ∀ (items : List Item) (n : Nat), fsum items (List.replicate n false) = 0
  | [], n => by simp [fsum]
  | i :: is, 0 => by simp [fsum]
  | i :: is, n + 1 => by simp [fsum, List.replicate_succ, fsum_zero is n]

theorem rgo_zero {rnd : Rat → Rat} (items : List Item) (n : Nat) (z : Rat) :
    rgo rnd z items (List.replicate n false) = z := by
  induction items generalizing n with
  | nil => simp [rgo]
  | cons i is ih =>
    cases n with
    | zero => simp [rgo]
    | succ n => simp [rgo, List.replicate_succ, ih]

theorem rsum_zero {rnd : Rat → Rat} (items : List Item) (n : Nat) :
    rsum rnd items (List.replicate n false) = 0 := by
  cases items with
  | nil => simp [rsum]
  | cons i is =>
    cases n with
    | zero => simp [rsum]
    | succ n => simp [rsum, List.replicate_succ, rgo_zero]

theorem fsum_mono : ∀ {items : List Item} {a b : List Bool}, (∀ i ∈ items, 0 < i.factor) →
    a.length = items.length → b.length = items.length →
    (∀ i : Nat, a[i]? = some true → b[i]? = some true) →
    fsum items a ≤ fsum items b ∧
    ((∃ i : Nat, b[i]? = some true ∧ a[i]? = some false) → fsum items a < fsum items b)
  | [], a, b, _, ha, hb, _ => by
    simp at ha hb; subst ha; subst hb
    simp [fsum]
  | it :: is, [], b, _, ha, _, _ => by simp at ha
  | it :: is, a :: as, [], _, _, hb, _ => by simp at hb
  | it :: is, a :: as, b :: bs, hp, ha, hb, h => by
    obtain ⟨h1, h2⟩ := fsum_mono (items := is) (a := as) (b := bs)
      (fun i hi => hp i (List.mem_cons_of_mem _ hi)) (by simpa using ha) (by simpa using hb)
      (fun i hi => by
        have := h (i + 1) (by rw [List.getElem?_cons_succ]; exact hi)
        rwa [List.getElem?_cons_succ] at this)
    have h0 := h 0
    simp only [List.getElem?_cons_zero, Option.some.injEq] at h0
    have hpos := hp it (by simp)
    constructor
    · cases a <;> cases b <;> simp [fsum] at h0 ⊢ <;> omega
    · rintro ⟨i, hi1, hi2⟩
      cases i with
      | zero =>
        simp only [List.getElem?_cons_zero, Option.some.injEq] at hi1 hi2
        subst hi1; subst hi2
        simp [fsum]; omega
      | succ i =>
        rw [List.getElem?_cons_succ] at hi1 hi2
        have := h2 ⟨i, hi1, hi2⟩
        cases a <;> cases b <;> simp [fsum] at h0 ⊢ <;> omega

/-! ## The search -/

variable {rnd : Rat → Rat} {t : ObjType} {items : List Item} {bmin bmax : Int}

/-- The selection `y` is within the bounds. -/
def Feas (items : List Item) (bmin bmax : Int) (y : List Bool) : Prop :=
  y.length = items.length ∧ bmin ≤ fsum items y ∧ fsum items y ≤ bmax

structure NodeOk (rnd : Rat → Rat) (items : List Item) (nd : Node) : Prop where
  len : nd.bits.length = items.length
  lvl : nd.level < items.length
  clear_ : ∀ i : Nat, nd.level < i → i < items.length → nd.bits[i]? = some false
  sumr : nd.sumr = rsum rnd items nd.bits
  sumf : nd.sumfactor = fsum items nd.bits

/-- `y` extends the node with at least another item. -/
def Under (nd : Node) (y : List Bool) : Prop :=
  (∀ i : Nat, i ≤ nd.level → y[i]? = nd.bits[i]?) ∧ ∃ i : Nat, nd.level < i ∧ y[i]? = some true

/-- `y` takes an item other than the first one. -/
def Late (y : List Bool) : Prop := ∃ i : Nat, 1 ≤ i ∧ y[i]? = some true

def Done (rnd : Rat → Rat) (t : ObjType) (items : List Item) (st : St) (y : List Bool) : Prop :=
  ∃ z, st.lower = some z ∧ AtLeastAsGood t z (rsum rnd items y)

structure Inv (rnd : Rat → Rat) (t : ObjType) (items : List Item) (bmin bmax : Int) (s0 : List Bool) (st : St) :
    Prop where
  nodes : ∀ nd ∈ st.nodes, NodeOk rnd items nd
  cover : ∀ y, Feas items bmin bmax y → Late y →
    (∃ nd ∈ st.nodes, Under nd y) ∨ Done rnd t items st y
  best : ∀ z, st.lower = some z → Feas items bmin bmax st.solution ∧ z = rsum rnd items st.solution
  nothing : st.lower = none → st.solution = s0

theorem Inv.record {s0 : List Bool} {st : St} (h : Inv rnd t items bmin bmax s0 st) (ns : List Node)
    (bits : List Bool) (hf : Feas items bmin bmax bits)
    (hns : ∀ nd ∈ ns, NodeOk rnd items nd)
    (hc : ∀ y, Feas items bmin bmax y → Late y → (∃ nd ∈ st.nodes, Under nd y) →
      (∃ nd ∈ ns, Under nd y) ∨ y = bits) :
    Inv rnd t items bmin bmax s0 (record t { st with nodes := ns } bits (rsum rnd items bits)) := by
  unfold BranchBound.record
  simp only
  cases hb : isBest t (rsum rnd items bits) st.lower with
  | true =>
    simp only [if_true]
    have hd : ∀ y, Done rnd t items st y → AtLeastAsGood t (rsum rnd items bits) (rsum rnd items y) := by
      rintro y ⟨z, hz, hg⟩
      rw [hz] at hb
      exact good_trans (better_true hb) hg
    refine ⟨hns, ?_, ?_, ?_⟩
    · intro y hy hl
      rcases h.cover y hy hl with hu | hdn
      · rcases hc y hy hl hu with hu | rfl
        · exact Or.inl hu
        · exact Or.inr ⟨_, rfl, good_refl _ _⟩
      · exact Or.inr ⟨_, rfl, hd y hdn⟩
    · intro z hz
      exact ⟨hf, (Option.some.inj hz).symm⟩
    · intro hz; simp at hz
  | false =>
    simp only [Bool.false_eq_true, if_false]
    obtain ⟨z, hz⟩ : ∃ z, st.lower = some z := by
      cases hl : st.lower with
      | none => rw [hl] at hb; simp [isBest] at hb
      | some z => exact ⟨z, rfl⟩
    rw [hz] at hb
    refine ⟨hns, ?_, h.best, h.nothing⟩
    intro y hy hl
    rcases h.cover y hy hl with hu | hdn
    · rcases hc y hy hl hu with hu | rfl
      · exact Or.inl hu
      · exact Or.inr ⟨z, hz, better_false hb⟩
    · exact Or.inr hdn

theorem Inv.keep {s0 : List Bool} {st : St} (h : Inv rnd t items bmin bmax s0 st) (ns : List Node)
    (hns : ∀ nd ∈ ns, NodeOk rnd items nd)
    (hc : ∀ y, Feas items bmin bmax y → Late y → (∃ nd ∈ st.nodes, Under nd y) →
      ∃ nd ∈ ns, Under nd y) :
    Inv rnd t items bmin bmax s0 { st with nodes := ns } := by
  refine ⟨hns, ?_, h.best, h.nothing⟩
  intro y hy hl
  rcases h.cover y hy hl with hu | hd
  · exact Or.inl (hc y hy hl hu)
  · exact Or.inr hd

/-- The two nodes made from a node. -/
theorem children {n0 : Node} (h : NodeOk rnd items n0) {it : Item}
    (hit : items[n0.level + 1]? = some it) :
    let n0' : Node := { n0 with level := n0.level + 1 }
    let n1 : Node := ⟨n0.bits.set (n0.level + 1) true, rnd (n0.sumr + it.r), n0.sumfactor + it.factor,
      n0.level + 1⟩
    NodeOk rnd items n0' ∧ NodeOk rnd items n1 ∧
    ∀ y : List Bool, y.length = items.length → Under n0 y → Under n0' y ∨ Under n1 y ∨ y = n1.bits := by
  intro n0' n1
  have hlt : n0.level + 1 < items.length := (List.getElem?_eq_some_iff.mp hit).1
  have hcl := h.clear_ (n0.level + 1) (by omega) hlt
  have s1 := fsum_set hit hcl
  have s2 := rsum_set (rnd := rnd) hit fun i hi hl => h.clear_ i (by omega) hl
  refine ⟨⟨h.len, hlt, fun i hi hl => h.clear_ i (by simp only [n0'] at hi; omega) hl, h.sumr, h.sumf⟩,
    ⟨by simp [n1, h.len], hlt, ?_, ?_, ?_⟩, ?_⟩
  · intro i hi hl
    simp only [n1] at hi ⊢
    rw [List.getElem?_set_ne (by omega)]
    exact h.clear_ i (by omega) hl
  · simp only [n1]; rw [s2, h.sumr]
  · simp only [n1]; rw [s1, h.sumf]
  · rintro y hy ⟨hu1, i, hi, hyi⟩
    have hlt' : n0.level + 1 < y.length := by omega
    have hgy : y[n0.level + 1]? = some y[n0.level + 1] := List.getElem?_eq_getElem hlt'
    cases hb : y[n0.level + 1] with
    | false =>
      left
      rw [hb] at hgy
      refine ⟨?_, i, ?_, hyi⟩
      · intro j hj
        simp only [n0'] at hj ⊢
        by_cases hje : j = n0.level + 1
        · rw [hje, hgy, hcl]
        · exact hu1 j (by omega)
      · simp only [n0']
        by_contra hn
        have : i = n0.level + 1 := by omega
        rw [this, hgy] at hyi
        simp at hyi
    | true =>
      right
      rw [hb] at hgy
      have hag : ∀ j : Nat, j ≤ n0.level + 1 → y[j]? = n1.bits[j]? := by
        intro j hj
        simp only [n1]
        by_cases hje : j = n0.level + 1
        · rw [hje, hgy, List.getElem?_set_self (by rw [h.len]; exact hlt)]
        · rw [List.getElem?_set_ne (by omega)]
          exact hu1 j (by omega)
      by_cases hex : ∃ j : Nat, n0.level + 1 < j ∧ y[j]? = some true
      · obtain ⟨j, hj, hyj⟩ := hex
        exact Or.inl ⟨hag, j, hj, hyj⟩
      · right
        apply List.ext_getElem?
        intro j
        by_cases hj : j ≤ n0.level + 1
        · exact hag j hj
        · simp only [n1]
          rw [List.getElem?_set_ne (by omega)]
          by_cases hjl : j < items.length
          · rw [h.clear_ j (by omega) hjl, List.getElem?_eq_getElem (by omega)]
            cases hyj : y[j]'(by omega) with
            | false => rfl
            | true =>
              exact absurd ⟨j, by omega, by rw [List.getElem?_eq_getElem (by omega), hyj]⟩ hex
          · rw [List.getElem?_eq_none (by omega), List.getElem?_eq_none (by rw [h.len]; omega)]

/-- A selection under a node weighs more than the node. -/
theorem under_weight {nd : Node} (h : NodeOk rnd items nd) (hp : ∀ i ∈ items, 0 < i.factor)
    {y : List Bool} (hy : y.length = items.length) (hu : Under nd y) :
    nd.sumfactor < fsum items y := by
  rw [h.sumf]
  obtain ⟨h1, i, hi, hyi⟩ := hu
  refine (fsum_mono hp h.len hy ?_).2 ⟨i, hyi, ?_⟩
  · intro j hj
    by_cases hjl : j ≤ nd.level
    · rw [h1 j hjl]; exact hj
    · have hl := (List.getElem?_eq_some_iff.mp hj).1
      rw [h.clear_ j (by omega) (by rw [← h.len]; exact hl)] at hj
      simp at hj
  · exact h.clear_ i hi (by rw [← hy]; exact (List.getElem?_eq_some_iff.mp hyi).1)

/-- Turns left: a node at level `l` needs at most `3 ^ (n - l)` of them. -/
def work (n : Nat) : List Node → Nat
  | [] => 0
  | nd :: ns => 3 ^ (n - nd.level) + work n ns

theorem pow_drop {n l : Nat} (h : l + 1 < n) : 3 ^ (n - l) = 3 * 3 ^ (n - (l + 1)) := by
  rw [show n - l = (n - (l + 1)) + 1 by omega, pow_succ, mul_comm]

theorem nextEquality_spec {s0 : List Bool} (hp : ∀ i ∈ items, 0 < i.factor) {st : St}
    (h : Inv rnd t items bmin bmin s0 st) (hne : st.nodes ≠ []) :
    ∃ st', nextEquality rnd t items bmin st = .ok st' ∧ Inv rnd t items bmin bmin s0 st' ∧
      work items.length st'.nodes < work items.length st.nodes := by
  obtain ⟨nodes, lower, solution⟩ := st
  cases nodes with
  | nil => exact absurd rfl hne
  | cons n0 ns =>
    have hn0 := h.nodes n0 (by simp)
    have hns : ∀ nd ∈ ns, NodeOk rnd items nd := fun nd hnd => h.nodes nd (List.mem_cons_of_mem _ hnd)
    unfold nextEquality
    simp only
    cases hit : items[n0.level + 1]? with
    | none =>
      have hl : items.length ≤ n0.level + 1 := List.getElem?_eq_none_iff.mp hit
      refine ⟨_, rfl, h.keep ns hns ?_, ?_⟩
      · rintro y hy _ ⟨nd, hnd, hu⟩
        rcases List.mem_cons.mp hnd with rfl | hnd
        · obtain ⟨_, i, hi, hyi⟩ := hu
          have := (List.getElem?_eq_some_iff.mp hyi).1
          have := hy.1
          omega
        · exact ⟨nd, hnd, hu⟩
      · simp only [work]
        have : 0 < 3 ^ (items.length - n0.level) := Nat.pos_of_ne_zero (by positivity)
        omega
    | some it =>
      obtain ⟨c1, c2, c3⟩ := children hn0 hit
      have hlt : n0.level + 1 < items.length := (List.getElem?_eq_some_iff.mp hit).1
      have hpw := pow_drop hlt
      have hpos : 0 < 3 ^ (items.length - (n0.level + 1)) := Nat.pos_of_ne_zero (by positivity)
      simp only
      by_cases hs : n0.sumfactor + it.factor = bmin
      · rw [if_pos hs]
        have hfb : Feas items bmin bmin (n0.bits.set (n0.level + 1) true) := by
          have := c2.sumf
          simp only at this
          exact ⟨c2.len, by omega, by omega⟩
        have hsr : rnd (n0.sumr + it.r) = rsum rnd items (n0.bits.set (n0.level + 1) true) := c2.sumr
        rw [hsr]
        refine ⟨_, rfl, h.record ({ n0 with level := n0.level + 1 } :: ns) _ hfb ?_ ?_, ?_⟩
        · intro nd hnd
          rcases List.mem_cons.mp hnd with rfl | hnd
          · exact c1
          · exact hns nd hnd
        · rintro y hy _ ⟨nd, hnd, hu⟩
          rcases List.mem_cons.mp hnd with rfl | hnd
          · rcases c3 y hy.1 hu with hu | hu | hu
            · exact Or.inl ⟨_, by simp, hu⟩
            · have := under_weight c2 hp hy.1 hu
              simp only at this
              have := hy.2
              omega
            · exact Or.inr hu
          · exact Or.inl ⟨nd, List.mem_cons_of_mem _ hnd, hu⟩
        · have hrn : (record t { (⟨n0 :: ns, lower, solution⟩ : St) with
              nodes := { n0 with level := n0.level + 1 } :: ns }
              (n0.bits.set (n0.level + 1) true)
              (rsum rnd items (n0.bits.set (n0.level + 1) true))).nodes =
              { n0 with level := n0.level + 1 } :: ns := by
            unfold record; split <;> rfl
          rw [hrn]
          simp only [work]
          omega
      · rw [if_neg hs]
        refine ⟨_, rfl, h.keep _ ?_ ?_, ?_⟩
        · intro nd hnd
          rcases List.mem_cons.mp hnd with rfl | hnd
          · exact c2
          rcases List.mem_cons.mp hnd with rfl | hnd
          · exact c1
          · exact hns nd hnd
        · rintro y hy _ ⟨nd, hnd, hu⟩
          rcases List.mem_cons.mp hnd with rfl | hnd
          · rcases c3 y hy.1 hu with hu | hu | hu
            · exact ⟨_, by simp, hu⟩
            · exact ⟨_, by simp, hu⟩
            · exfalso
              have := c2.sumf
              simp only at this hu
              rw [← hu] at this
              have := hy.2
              omega
          · exact ⟨nd, by simp [hnd], hu⟩
        · simp only [work]
          omega

theorem nextInequality_spec {s0 : List Bool} (hp : ∀ i ∈ items, 0 < i.factor) {st : St}
    (h : Inv rnd t items bmin bmax s0 st) (hne : st.nodes ≠ []) :
    ∃ st', nextInequality rnd t items bmin bmax st = .ok st' ∧ Inv rnd t items bmin bmax s0 st' ∧
      work items.length st'.nodes < work items.length st.nodes := by
  obtain ⟨nodes, lower, solution⟩ := st
  cases nodes with
  | nil => exact absurd rfl hne
  | cons n0 ns =>
    have hn0 := h.nodes n0 (by simp)
    have hns : ∀ nd ∈ ns, NodeOk rnd items nd := fun nd hnd => h.nodes nd (List.mem_cons_of_mem _ hnd)
    unfold nextInequality
    simp only
    cases hit : items[n0.level + 1]? with
    | none =>
      have hl : items.length ≤ n0.level + 1 := List.getElem?_eq_none_iff.mp hit
      refine ⟨_, rfl, h.keep ns hns ?_, ?_⟩
      · rintro y hy _ ⟨nd, hnd, hu⟩
        rcases List.mem_cons.mp hnd with rfl | hnd
        · obtain ⟨_, i, hi, hyi⟩ := hu
          have := (List.getElem?_eq_some_iff.mp hyi).1
          have := hy.1
          omega
        · exact ⟨nd, hnd, hu⟩
      · simp only [work]
        have : 0 < 3 ^ (items.length - n0.level) := Nat.pos_of_ne_zero (by positivity)
        omega
    | some it =>
      obtain ⟨c1, c2, c3⟩ := children hn0 hit
      have hlt : n0.level + 1 < items.length := (List.getElem?_eq_some_iff.mp hit).1
      have hpw := pow_drop hlt
      have hpos : 0 < 3 ^ (items.length - (n0.level + 1)) := Nat.pos_of_ne_zero (by positivity)
      have hall : ∀ nd ∈ (⟨n0.bits.set (n0.level + 1) true, rnd (n0.sumr + it.r),
          n0.sumfactor + it.factor, n0.level + 1⟩ : Node) :: { n0 with level := n0.level + 1 } :: ns,
          NodeOk rnd items nd := by
        intro nd hnd
        rcases List.mem_cons.mp hnd with rfl | hnd
        · exact c2
        rcases List.mem_cons.mp hnd with rfl | hnd
        · exact c1
        · exact hns nd hnd
      have hsf := c2.sumf
      simp only at hsf ⊢
      by_cases hs : bmin ≤ n0.sumfactor + it.factor ∧ n0.sumfactor + it.factor ≤ bmax
      · rw [if_pos hs]
        have hfb : Feas items bmin bmax (n0.bits.set (n0.level + 1) true) :=
          ⟨c2.len, by omega, by omega⟩
        have hsr : rnd (n0.sumr + it.r) = rsum rnd items (n0.bits.set (n0.level + 1) true) := c2.sumr
        refine ⟨_, rfl, ?_, ?_⟩
        · have := h.record (⟨n0.bits.set (n0.level + 1) true, rnd (n0.sumr + it.r),
            n0.sumfactor + it.factor, n0.level + 1⟩ :: { n0 with level := n0.level + 1 } :: ns) _
            hfb hall (by
              rintro y hy _ ⟨nd, hnd, hu⟩
              rcases List.mem_cons.mp hnd with rfl | hnd
              · rcases c3 y hy.1 hu with hu | hu | hu
                · exact Or.inl ⟨_, by simp, hu⟩
                · exact Or.inl ⟨_, by simp, hu⟩
                · exact Or.inr hu
              · exact Or.inl ⟨nd, by simp [hnd], hu⟩)
          rwa [← hsr] at this
        · have hrn : ∀ (s : St) (b : List Bool) (z : Rat), (record t s b z).nodes = s.nodes := by
            intro s b z; unfold record; split <;> rfl
          rw [hrn]
          simp only [work]
          omega
      · rw [if_neg hs]
        by_cases hs2 : n0.sumfactor + it.factor > bmax
        · rw [if_pos hs2]
          refine ⟨_, rfl, h.keep _ (fun nd hnd => hall nd (List.mem_cons_of_mem _ hnd)) ?_, ?_⟩
          · rintro y hy _ ⟨nd, hnd, hu⟩
            rcases List.mem_cons.mp hnd with rfl | hnd
            · rcases c3 y hy.1 hu with hu | hu | hu
              · exact ⟨_, by simp, hu⟩
              · exfalso
                have := under_weight c2 hp hy.1 hu
                simp only at this
                have := hy.2
                omega
              · exfalso
                simp only at hu
                rw [← hu] at hsf
                have := hy.2
                omega
            · exact ⟨nd, by simp [hnd], hu⟩
          · simp only [work]
            omega
        · rw [if_neg hs2]
          refine ⟨_, rfl, h.keep _ hall ?_, ?_⟩
          · rintro y hy _ ⟨nd, hnd, hu⟩
            rcases List.mem_cons.mp hnd with rfl | hnd
            · rcases c3 y hy.1 hu with hu | hu | hu
              · exact ⟨_, by simp, hu⟩
              · exact ⟨_, by simp, hu⟩
              · exfalso
                simp only at hu
                rw [← hu] at hsf
                have := hy.2
                omega
            · exact ⟨nd, by simp [hnd], hu⟩
          · simp only [work]
            omega

theorem loop_spec {P : St → Prop} {n : Nat} {next : St → Outcome St}
    (hstep : ∀ st, P st → st.nodes ≠ [] →
      ∃ st', next st = .ok st' ∧ P st' ∧ work n st'.nodes < work n st.nodes) :
    ∀ (fuel : Nat) (st : St), P st → work n st.nodes < fuel →
    ∃ st', loop next fuel st = .ok st' ∧ P st' ∧ st'.nodes = []
  | 0, st, _, h => by omega
  | fuel + 1, st, hP, h => by
    unfold loop
    by_cases hn : st.nodes = []
    · rw [if_pos hn]; exact ⟨st, rfl, hP, hn⟩
    · rw [if_neg hn]
      obtain ⟨st', h1, h2, h3⟩ := hstep st hP hn
      rw [h1]
      exact loop_spec hstep fuel st' h2 (by omega)

/-- What the search returns. -/
def Answer (rnd : Rat → Rat) (t : ObjType) (items : List Item) (bmin bmax : Int) (sol : List Bool) : Prop :=
  sol.length = items.length ∧
  ((∃ y, Feas items bmin bmax y) → Feas items bmin bmax sol) ∧
  ∀ y, Feas items bmin bmax y → Late y → AtLeastAsGood t (rsum rnd items sol) (rsum rnd items y)

theorem init0_ok (h : items ≠ []) : NodeOk rnd items (init0 items.length) := by
  have hl : 0 < items.length := List.length_pos_iff.mpr h
  refine ⟨by simp [init0], hl, ?_, ?_, ?_⟩
  · intro i _ hi
    simp [init0, hi]
  · simp [init0, rsum_zero]
  · simp [init0, fsum_zero]

theorem init1_ok (it : Item) (is : List Item) :
    NodeOk rnd (it :: is) (init1 (it :: is).length it) := by
  have h0 : (List.replicate (it :: is).length false)[0]? = some false := by simp
  have s1 := fsum_set (items := it :: is) (l := 0) (it := it) rfl h0
  refine ⟨by simp [init1], by simp [init1], ?_, ?_, ?_⟩
  · intro i hi hl
    simp only [init1] at hi ⊢
    rw [List.getElem?_set_ne (by omega)]
    simp only [List.length_cons] at hl
    simp [hl]
  · simp [init1, List.replicate_succ, rsum, rgo_zero]
  · simp only [init1]; rw [s1, fsum_zero]; simp

theorem late_cases {it : Item} {is : List Item} {y : List Bool}
    (hy : y.length = (it :: is).length) (hl : Late y) :
    Under (init0 (it :: is).length) y ∨ Under (init1 (it :: is).length it) y := by
  obtain ⟨i, hi, hyi⟩ := hl
  cases y with
  | nil => simp at hy
  | cons b y =>
    cases b with
    | false =>
      left
      refine ⟨?_, i, by simp [init0]; omega, hyi⟩
      intro j hj
      have : j = 0 := by simpa [init0] using hj
      subst this
      simp [init0]
    | true =>
      right
      refine ⟨?_, i, by simp [init1]; omega, hyi⟩
      intro j hj
      have : j = 0 := by simpa [init1] using hj
      subst this
      simp [init1]

theorem not_late {it : Item} {is : List Item} {y : List Bool}
    (hy : y.length = (it :: is).length) (hl : ¬ Late y) :
    y = (init0 (it :: is).length).bits ∨ y = (init1 (it :: is).length it).bits := by
  cases y with
  | nil => simp at hy
  | cons b y =>
    have hyz : y = List.replicate is.length false := by
      apply List.ext_getElem?
      intro j
      by_cases hj : j < is.length
      · simp only [List.length_cons, Nat.add_right_cancel_iff] at hy
        rw [List.getElem?_eq_getElem (by omega)]
        cases hb : y[j]'(by omega) with
        | false => simp [hj]
        | true =>
          exact absurd ⟨j + 1, by omega, by
            rw [List.getElem?_cons_succ, List.getElem?_eq_getElem (by omega), hb]⟩ hl
      · simp only [List.length_cons, Nat.add_right_cancel_iff] at hy
        rw [List.getElem?_eq_none (by omega), List.getElem?_eq_none (by simp; omega)]
    subst hyz
    cases b
    · left; simp [init0, List.replicate_succ]
    · right; simp [init1, List.replicate_succ]

/-- From the final state of the search. -/
theorem answer_of_inv {s0 : List Bool} {st : St} (h : Inv rnd t items bmin bmax s0 st)
    (hn : st.nodes = []) (hl : s0.length = items.length)
    (h0 : (∃ y, Feas items bmin bmax y ∧ ¬ Late y) → Feas items bmin bmax s0) :
    Answer rnd t items bmin bmax st.solution := by
  have hdone : ∀ y, Feas items bmin bmax y → Late y → Done rnd t items st y := by
    intro y hy hlt
    rcases h.cover y hy hlt with ⟨nd, hnd, _⟩ | hd
    · rw [hn] at hnd; simp at hnd
    · exact hd
  cases hlow : st.lower with
  | none =>
    have hs := h.nothing hlow
    have hno : ∀ y, Feas items bmin bmax y → ¬ Late y := by
      intro y hy hlt
      obtain ⟨z, hz, _⟩ := hdone y hy hlt
      rw [hlow] at hz; simp at hz
    refine ⟨by rw [hs, hl], ?_, fun y hy hlt => absurd hlt (hno y hy)⟩
    rintro ⟨y, hy⟩
    rw [hs]
    exact h0 ⟨y, hy, hno y hy⟩
  | some z =>
    obtain ⟨g1, g2⟩ := h.best z hlow
    refine ⟨g1.1, fun _ => g1, fun y hy hlt => ?_⟩
    obtain ⟨z', hz, hg⟩ := hdone y hy hlt
    rw [hlow] at hz
    rw [← g2, Option.some.inj hz]
    exact hg

theorem work_two (n : Nat) (a b : Node) (ha : a.level = 0) (hb : b.level = 0) :
    work n [a, b] < turns n ∧ work n [a] < turns n ∧ work n [b] < turns n ∧ work n [] < turns n := by
  simp only [work, ha, hb, turns, Nat.sub_zero]
  omega

theorem solveEquality_spec (hp : ∀ i ∈ items, 0 < i.factor) (hne : items ≠ []) :
    ∃ sol, solveEquality rnd t items bmin = .ok sol ∧ Answer rnd t items bmin bmin sol := by
  cases items with
  | nil => exact absurd rfl hne
  | cons it is =>
    have hn0 := init0_ok (rnd := rnd) hne
    have hn1 := init1_ok (rnd := rnd) it is
    unfold solveEquality
    simp only
    by_cases hz : (init0 (it :: is).length).sumfactor = bmin
    · rw [if_pos hz]
      have hz0 : bmin = 0 := by rw [← hz]; rfl
      refine ⟨_, rfl, hn0.len, fun _ => ⟨hn0.len, ?_, ?_⟩, ?_⟩
      · rw [← hn0.sumf, hz]
      · rw [← hn0.sumf, hz]
      · intro y hy hl
        exfalso
        obtain ⟨i, _, hyi⟩ := hl
        have := (fsum_mono hp hn0.len hy.1 (a := (init0 (it :: is).length).bits) (by
          intro j hj
          simp only [init0, List.getElem?_replicate] at hj
          split at hj <;> simp at hj)).2 ⟨i, hyi, by
            have := (List.getElem?_eq_some_iff.mp hyi).1
            have h1 := hy.1
            simp only [init0, List.getElem?_replicate]
            rw [if_pos (by omega)]⟩
        rw [← hn0.sumf, hz] at this
        have := hy.2
        omega
    · rw [if_neg hz]
      have hw := work_two (it :: is).length (init1 (it :: is).length it) (init0 (it :: is).length) rfl rfl
      have fin : ∀ st0 : St, st0.lower = none → st0.solution.length = (it :: is).length →
          (∀ nd ∈ st0.nodes, NodeOk rnd (it :: is) nd) →
          (∀ y, Feas (it :: is) bmin bmin y → Late y → ∃ nd ∈ st0.nodes, Under nd y) →
          work (it :: is).length st0.nodes < turns (it :: is).length →
          ((∃ y, Feas (it :: is) bmin bmin y ∧ ¬ Late y) → Feas (it :: is) bmin bmin st0.solution) →
          ∃ sol, (do let st ← loop (nextEquality rnd t (it :: is) bmin) (turns (it :: is).length) st0
                     .ok st.solution) = Except.ok (ε := Fault) sol ∧
            Answer rnd t (it :: is) bmin bmin sol := by
        intro st0 hl0 hs hns hcv hwk h0
        have hinv : Inv rnd t (it :: is) bmin bmin st0.solution st0 :=
          ⟨hns, fun y hy hl => Or.inl (hcv y hy hl), by rw [hl0]; simp, fun _ => rfl⟩
        obtain ⟨st', g1, g2, g3⟩ := loop_spec
          (fun st hst hn => nextEquality_spec hp hst hn) (turns (it :: is).length) st0 hinv hwk
        rw [g1]
        exact ⟨_, rfl, answer_of_inv g2 g3 hs h0⟩
      by_cases h1 : (init1 (it :: is).length it).sumfactor = bmin
      · rw [if_pos h1]
        refine fin _ rfl hn1.len ?_ ?_ hw.2.2.1 ?_
        · intro nd hnd
          rw [List.mem_singleton.mp hnd]; exact hn0
        · intro y hy hl
          rcases late_cases hy.1 hl with hu | hu
          · exact ⟨_, by simp, hu⟩
          · exfalso
            have := under_weight hn1 hp hy.1 hu
            have := hy.2
            omega
        · intro _
          exact ⟨hn1.len, by rw [← hn1.sumf, h1], by rw [← hn1.sumf, h1]⟩
      · rw [if_neg h1]
        refine fin _ rfl hn0.len ?_ ?_ hw.1 ?_
        · intro nd hnd
          rcases List.mem_cons.mp hnd with rfl | hnd
          · exact hn1
          · rw [List.mem_singleton.mp hnd]; exact hn0
        · intro y hy hl
          rcases late_cases hy.1 hl with hu | hu
          · exact ⟨_, by simp, hu⟩
          · exact ⟨_, by simp, hu⟩
        · rintro ⟨y, hy, hl⟩
          rcases not_late hy.1 hl with rfl | rfl
          · exact hy
          · exfalso
            have := hy.2
            rw [← hn1.sumf] at this
            omega

theorem solveInequality_spec (hp : ∀ i ∈ items, 0 < i.factor) (hne : items ≠ []) :
    ∃ sol, solveInequality rnd t items bmin bmax = .ok sol ∧ Answer rnd t items bmin bmax sol := by
  cases items with
  | nil => exact absurd rfl hne
  | cons it is =>
    have hn0 := init0_ok (rnd := rnd) hne
    have hn1 := init1_ok (rnd := rnd) it is
    have hz : (init0 (it :: is).length).sumfactor = 0 := rfl
    have hz1 : (init1 (it :: is).length it).sumfactor = it.factor := rfl
    have hpos := hp it (by simp)
    have hw := work_two (it :: is).length (init1 (it :: is).length it) (init0 (it :: is).length) rfl rfl
    have fin : ∀ st0 : St, st0.lower = none → st0.solution.length = (it :: is).length →
        (∀ nd ∈ st0.nodes, NodeOk rnd (it :: is) nd) →
        (∀ y, Feas (it :: is) bmin bmax y → Late y → ∃ nd ∈ st0.nodes, Under nd y) →
        work (it :: is).length st0.nodes < turns (it :: is).length →
        ((∃ y, Feas (it :: is) bmin bmax y ∧ ¬ Late y) → Feas (it :: is) bmin bmax st0.solution) →
        ∃ sol, (do let st ← loop (nextInequality rnd t (it :: is) bmin bmax) (turns (it :: is).length) st0
                   .ok st.solution) = Except.ok (ε := Fault) sol ∧
          Answer rnd t (it :: is) bmin bmax sol := by
      intro st0 hl0 hs hns hcv hwk h0
      have hinv : Inv rnd t (it :: is) bmin bmax st0.solution st0 :=
        ⟨hns, fun y hy hl => Or.inl (hcv y hy hl), by rw [hl0]; simp, fun _ => rfl⟩
      obtain ⟨st', g1, g2, g3⟩ := loop_spec
        (fun st hst hn => nextInequality_spec hp hst hn) (turns (it :: is).length) st0 hinv hwk
      rw [g1]
      exact ⟨_, rfl, answer_of_inv g2 g3 hs h0⟩
    have u0 : ∀ y, Feas (it :: is) bmin bmax y → Under (init0 (it :: is).length) y → ¬ (0 > bmax) := by
      intro y hy hu
      have := under_weight hn0 hp hy.1 hu
      have := hy.2
      omega
    have u1 : ∀ y, Feas (it :: is) bmin bmax y → Under (init1 (it :: is).length it) y →
        ¬ (it.factor > bmax) := by
      intro y hy hu
      have := under_weight hn1 hp hy.1 hu
      have := hy.2
      omega
    have nl : ∀ y, Feas (it :: is) bmin bmax y → ¬ Late y →
        y = (init0 (it :: is).length).bits ∧ bmin ≤ 0 ∧ 0 ≤ bmax ∨
        bmin ≤ it.factor ∧ it.factor ≤ bmax := by
      intro y hy hl
      have h2 := hy.2
      rcases not_late hy.1 hl with rfl | rfl
      · rw [← hn0.sumf, hz] at h2
        exact Or.inl ⟨rfl, h2.1, h2.2⟩
      · rw [← hn1.sumf, hz1] at h2
        exact Or.inr h2
    unfold solveInequality
    simp only [hz, hz1]
    by_cases a : (0 : Int) > bmax
    · simp only [a, if_true]
      have b1 : ¬ (bmin ≤ it.factor ∧ it.factor ≤ bmax) := by omega
      have b2 : it.factor > bmax := by omega
      simp only [b1, b2, if_true, if_false]
      refine fin ⟨[], none, _⟩ rfl hn0.len (by simp) ?_ hw.2.2.2 ?_
      · intro y hy hl
        exfalso
        rcases late_cases hy.1 hl with hu | hu
        · exact u0 y hy hu a
        · exact u1 y hy hu b2
      · rintro ⟨y, hy, hl⟩
        rcases nl y hy hl with h | h <;> omega
    · simp only [a, if_false]
      by_cases b1 : bmin ≤ it.factor ∧ it.factor ≤ bmax
      · simp only [b1, and_self, if_true]
        refine fin ⟨[_, _], none, _⟩ rfl hn1.len ?_ ?_ hw.1 ?_
        · intro nd hnd
          rcases List.mem_cons.mp hnd with rfl | hnd
          · exact hn1
          · rw [List.mem_singleton.mp hnd]; exact hn0
        · intro y hy hl
          rcases late_cases hy.1 hl with hu | hu
          · exact ⟨_, by simp, hu⟩
          · exact ⟨_, by simp, hu⟩
        · intro _
          exact ⟨hn1.len, by rw [← hn1.sumf, hz1]; exact b1.1, by rw [← hn1.sumf, hz1]; exact b1.2⟩
      · simp only [b1, if_false]
        by_cases b2 : it.factor > bmax
        · simp only [b2, if_true]
          refine fin ⟨[_], none, _⟩ rfl hn0.len ?_ ?_ hw.2.2.1 ?_
          · intro nd hnd
            rw [List.mem_singleton.mp hnd]; exact hn0
          · intro y hy hl
            rcases late_cases hy.1 hl with hu | hu
            · exact ⟨_, by simp, hu⟩
            · exact absurd b2 (u1 y hy hu)
          · rintro ⟨y, hy, hl⟩
            rcases nl y hy hl with ⟨h, _⟩ | h
            · simp only; rw [← h]; exact hy
            · exact absurd h b1
        · simp only [b2, if_false]
          refine fin ⟨[_, _], none, _⟩ rfl hn0.len ?_ ?_ hw.1 ?_
          · intro nd hnd
            rcases List.mem_cons.mp hnd with rfl | hnd
            · exact hn1
            · rw [List.mem_singleton.mp hnd]; exact hn0
          · intro y hy hl
            rcases late_cases hy.1 hl with hu | hu
            · exact ⟨_, by simp, hu⟩
            · exact ⟨_, by simp, hu⟩
          · rintro ⟨y, hy, hl⟩
            rcases nl y hy hl with ⟨h, _⟩ | h
            · simp only; rw [← h]; exact hy
            · exact absurd h b1

theorem explore_spec (hp : ∀ i ∈ items, 0 < i.factor) (hne : items ≠ []) :
    ∃ sol, explore rnd t items bmin bmax = .ok sol ∧ Answer rnd t items bmin bmax sol := by
  unfold explore
  by_cases h : bmax = bmin
  · rw [if_pos h]; subst h; exact solveEquality_spec hp hne
  · rw [if_neg h]; exact solveInequality_spec hp hne

/-! ## From the items to the elements of the row -/

/-- The bits that stand for a selection. -/
def bitsOf (y : Nat → Bool) (items : List Item) : List Bool :=
  items.map fun i => if i.original > 0 then y i.variable_ else !y i.variable_

/-- The element an item is made from. -/
def rcOf (i : Item) : Rc := ⟨i.r, i.variable_, i.original⟩

theorem fsum_bitsOf (y : Nat → Bool) : ∀ {items : List Item},
    (∀ i ∈ items, i.factor = i.original.natAbs) →
    fsum items (bitsOf y items) = weight y (items.map rcOf) + shift items
  | [], _ => by simp [fsum, weight, shift]
  | i :: is, h => by
    have ih := fsum_bitsOf y (items := is) fun j hj => h j (List.mem_cons_of_mem _ hj)
    have hi := h i (by simp)
    unfold bitsOf weight shift at ih ⊢
    simp only [List.map_cons, fsum, List.sum_cons, rcOf] at ih ⊢
    rw [ih, hi]
    generalize (List.map (fun c : Rc => if y c.id = true then c.f else 0) (List.map rcOf is)).sum = a
    cases y i.variable_ <;> by_cases h1 : i.original > 0 <;> by_cases h2 : i.original < 0 <;>
      simp only [h1, h2, if_true, if_false, Bool.false_eq_true, Bool.not_true, Bool.not_false] <;> omega

theorem rgo_bitsOf (y : Nat → Bool) : ∀ {items : List Item} {z : Rat},
    (∀ i ∈ items, 0 < i.original) → rgo rnd z items (bitsOf y items) =
      ((items.map rcOf).filter fun c => y c.id).foldl (fun z c => rnd (z + c.value)) z
  | [], _, _ => by simp [rgo]
  | i :: is, z, h => by
    have ih := fun z => rgo_bitsOf y (items := is) (z := z) fun j hj => h j (List.mem_cons_of_mem _ hj)
    have hi := h i (by simp)
    unfold bitsOf at ih ⊢
    simp only [List.map_cons, rgo, ih, List.filter_cons, rcOf, hi, if_true]
    split <;> rfl

theorem rsum_bitsOf (y : Nat → Bool) {items : List Item} (h : ∀ i ∈ items, 0 < i.original)
    (hr : ∀ i ∈ items, rnd i.r = i.r) :
    rsum rnd items (bitsOf y items) = summedCost rnd y (items.map rcOf) := by
  cases items with
  | nil => simp [rsum, summedCost]
  | cons i is =>
    have := rgo_bitsOf (rnd := rnd) y (items := is) (z := if y i.variable_ then i.r else 0)
      fun j hj => h j (List.mem_cons_of_mem _ hj)
    have hi := h i (by simp)
    have hri := hr i (by simp)
    unfold bitsOf at this ⊢
    unfold summedCost
    simp only [List.map_cons, rsum, hi, if_true, this, List.filter_cons, rcOf]
    split <;> simp [hri]

theorem results_fst : ∀ {items : List Item} {sol : List Bool}, sol.length = items.length →
    (List.zipWith resultOf items sol).map Prod.fst = items.map rcOf
  | [], _, _ => by simp
  | i :: is, [], h => by simp at h
  | i :: is, b :: bs, h => by
    simp only [List.zipWith_cons_cons, List.map_cons]
    rw [results_fst (by simpa using h)]
    rfl

theorem results_bits {y : Nat → Bool} : ∀ {items : List Item} {sol : List Bool},
    sol.length = items.length →
    (∀ p ∈ List.zipWith resultOf items sol, y p.1.id = p.2) → bitsOf y items = sol
  | [], sol, h, _ => by
    have : sol = [] := by simpa using h
    subst this; rfl
  | i :: is, [], h, _ => by simp at h
  | i :: is, b :: bs, h, hy => by
    have ih := results_bits (y := y) (items := is) (sol := bs) (by simpa using h)
      fun p hp => hy p (by rw [List.zipWith_cons_cons]; exact List.mem_cons_of_mem _ hp)
    have h0 := hy (resultOf i b) (by simp)
    simp only [resultOf] at h0
    unfold bitsOf at ih ⊢
    rw [List.map_cons, ih, h0]
    by_cases hi : i.original > 0 <;> simp [hi]

theorem rcOf_itemOf (rc : List Rc) : (rc.map itemOf).map rcOf = rc := by
  rw [List.map_map]
  have : rcOf ∘ itemOf = id := by funext c; rfl
  rw [this, List.map_id]

/-- What `branch_and_bound_solver::solve` returns. -/
theorem solve_spec {sort1 : List Item → List Item}
    {sort2 : List (Rc × Bool) → List (Rc × Bool)} (hs1 : ∀ l, (sort1 l).Perm l)
    (hs2 : SortOk (before t) sort2) {rc : List Rc} (hl : 4 ≤ rc.length)
    (hf : ∀ c ∈ rc, c.f ≠ 0) (hid : (rc.map Rc.id).Nodup) (hb : bmin ≤ bmax) :
    ∃ out, solve rnd t sort1 sort2 rc bmin bmax = .ok out ∧ out.1.Perm rc ∧
      -1 ≤ out.2 ∧ out.2 ≤ rc.length ∧ out.2 ≠ (rc.length : Int) - 1 ∧
      ((∃ y, bmin ≤ weight y rc ∧ weight y rc ≤ bmax) →
        bmin ≤ weight (chosen out) rc ∧ weight (chosen out) rc ≤ bmax) ∧
      ((∀ c ∈ rc, 0 < c.f) → (∀ c ∈ rc, rnd c.value = c.value) → ∀ first, (sort1 (rc.map itemOf)).head? = some first →
        ∀ y, bmin ≤ weight y rc → weight y rc ≤ bmax →
          (∃ c ∈ rc, y c.id = true ∧ c.id ≠ first.variable_) →
          AtLeastAsGood t (summedCost rnd (chosen out) ((sort1 (rc.map itemOf)).map rcOf))
            (summedCost rnd y ((sort1 (rc.map itemOf)).map rcOf))) := by
  have hperm := hs1 (rc.map itemOf)
  generalize hitems : sort1 (rc.map itemOf) = items at hperm
  have hrc : (items.map rcOf).Perm rc := by
    have := hperm.map rcOf
    rwa [rcOf_itemOf] at this
  have hlen : items.length = rc.length := by
    have := hperm.length_eq
    simpa using this
  have hfrom : ∀ i ∈ items, ∃ c ∈ rc, itemOf c = i := fun i hi =>
    List.mem_map.mp (hperm.mem_iff.mp hi)
  have habs : ∀ i ∈ items, i.factor = i.original.natAbs := by
    intro i hi
    obtain ⟨c, _, rfl⟩ := hfrom i hi
    rfl
  have hpos : ∀ i ∈ items, 0 < i.factor := by
    intro i hi
    obtain ⟨c, hc, rfl⟩ := hfrom i hi
    have := hf c hc
    simp only [itemOf]
    omega
  have hne : items ≠ [] := by
    intro h; rw [h] at hlen; simp at hlen; omega
  have hw : ∀ y, fsum items (bitsOf y items) = weight y rc + shift items := fun y => by
    rw [fsum_bitsOf y habs, weight_perm hrc]
  obtain ⟨sol, e1, e2, e3, e4⟩ := explore_spec (rnd := rnd) (t := t) (bmin := bmin + shift items)
    (bmax := bmax + shift items) hpos hne
  have hmf := results_fst e2
  have hperm2 := (hs2 (List.zipWith resultOf items sol)).1
  have hzl : (List.zipWith resultOf items sol).length = rc.length := by
    simp [e2, hlen]
  have hnn : sort2 (List.zipWith resultOf items sol) ≠ [] := by
    intro h
    have := hperm2.length_eq
    rw [h, hzl] at this
    simp at this
    omega
  obtain ⟨sel, g1, g2, g3, _, g5, g6⟩ := selectedOf_spec hnn (sorted_first hs2 _)
  rw [hperm2.length_eq, hzl] at g3 g5
  have hids : ((List.zipWith resultOf items sol).map fun p => p.1.id).Nodup := by
    have : (List.zipWith resultOf items sol).map (fun p => p.1.id) =
        (items.map rcOf).map Rc.id := by
      rw [← hmf, List.map_map]; rfl
    rw [this]
    exact ((hrc.map Rc.id).nodup_iff).mpr hid
  have hch := chosen_spec hperm2 hids g6
  have hbits := results_bits e2 hch
  refine ⟨((sort2 (List.zipWith resultOf items sol)).map Prod.fst, sel), ?_, ?_, g2, g3, g5, ?_, ?_⟩
  · unfold solve
    rw [check_of (by simpa using hl), check_of (by simpa using hb)]
    simp only [ok_bind, hitems, e1, g1]
  · have := hperm2.map Prod.fst
    rw [hmf] at this
    exact this.trans hrc
  · rintro ⟨y, hy1, hy2⟩
    have hfs := e3 ⟨bitsOf y items, by simp [bitsOf], by rw [hw]; omega, by rw [hw]; omega⟩
    obtain ⟨_, k1, k2⟩ := hfs
    rw [← hbits, hw] at k1 k2
    constructor <;> omega
  · intro hpf hrv first hfirst y hy1 hy2 hc
    have horig : ∀ i ∈ items, 0 < i.original := by
      intro i hi
      obtain ⟨c, hc, rfl⟩ := hfrom i hi
      exact hpf c hc
    have hrep : ∀ i ∈ items, rnd i.r = i.r := by
      intro i hi
      obtain ⟨c, hc, rfl⟩ := hfrom i hi
      exact hrv c hc
    have := e4 (bitsOf y items) ⟨by simp [bitsOf], by rw [hw]; omega, by rw [hw]; omega⟩ ?_
    · rw [rsum_bitsOf y horig hrep, ← hbits, rsum_bitsOf _ horig hrep] at this
      exact this
    · obtain ⟨c, hcm, hcy, hcn⟩ := hc
      have hm : itemOf c ∈ items := hperm.mem_iff.mpr (List.mem_map.mpr ⟨c, hcm, rfl⟩)
      obtain ⟨i, hi⟩ := List.mem_iff_getElem?.mp hm
      refine ⟨i, ?_, ?_⟩
      · by_contra h0
        have : i = 0 := by omega
        subst this
        rw [List.head?_eq_getElem?, hi] at hfirst
        rw [← Option.some.inj hfirst] at hcn
        exact hcn rfl
      · unfold bitsOf
        rw [List.getElem?_map, hi]
        simp [itemOf, hcy, hpf c hcm]

/-- Without rounding: the costs are the sums themselves. -/
theorem solve_spec_id {sort1 : List Item → List Item}
    {sort2 : List (Rc × Bool) → List (Rc × Bool)} (hs1 : ∀ l, (sort1 l).Perm l)
    (hs2 : SortOk (before t) sort2) {rc : List Rc} (hl : 4 ≤ rc.length)
    (hf : ∀ c ∈ rc, c.f ≠ 0) (hid : (rc.map Rc.id).Nodup) (hb : bmin ≤ bmax) :
    ∃ out, solve id t sort1 sort2 rc bmin bmax = .ok out ∧ out.1.Perm rc ∧
      -1 ≤ out.2 ∧ out.2 ≤ rc.length ∧ out.2 ≠ (rc.length : Int) - 1 ∧
      ((∃ y, bmin ≤ weight y rc ∧ weight y rc ≤ bmax) →
        bmin ≤ weight (chosen out) rc ∧ weight (chosen out) rc ≤ bmax) ∧
      ((∀ c ∈ rc, 0 < c.f) → ∀ first, (sort1 (rc.map itemOf)).head? = some first →
        ∀ y, bmin ≤ weight y rc → weight y rc ≤ bmax →
          (∃ c ∈ rc, y c.id = true ∧ c.id ≠ first.variable_) →
          AtLeastAsGood t (cost (chosen out) rc) (cost y rc)) := by
  obtain ⟨out, h1, h2, h3, h4, h5, h6, h7⟩ := solve_spec (rnd := id) hs1 hs2 hl hf hid hb
  refine ⟨out, h1, h2, h3, h4, h5, h6, fun hp first hfi y hy1 hy2 hc => ?_⟩
  have hrc : ((sort1 (rc.map itemOf)).map rcOf).Perm rc := by
    have := (hs1 (rc.map itemOf)).map rcOf
    rwa [rcOf_itemOf] at this
  have := h7 hp (fun _ _ => rfl) first hfi y hy1 hy2 hc
  rwa [summedCost_id, summedCost_id, cost_perm hrc, cost_perm hrc] at this

end Bx.BranchBound
