import Verif.Model.RandomSolver
import Verif.Proofs.Multipliers

/-! Helper lemmas on the random solver. -/

namespace Bx.Rand

open Merge SolverCtor Spec Itm Mult

/-! ## The three loops -/

/-- The element at a position of the row. -/
def get (row : List FunElem) (r : RC) : FunElem := (row[r.id]?).getD ⟨0, 0⟩

/-- The cells designate elements of the row. -/
def Ids (row : List FunElem) (R : List RC) : Prop := ∀ r ∈ R, r.id < row.length

theorem elemOf_ok {e : Env} {r : RC} (h : r.id < e.row.length) : elemOf e r = .ok (get e.row r) := by
  unfold elemOf get
  rw [List.getElem?_eq_getElem h]
  rfl

/-- The sum of the factors of the cells. -/
def sumF (row : List FunElem) (A : List RC) : Int := (A.map fun r => (get row r).factor).sum

/-- The variables of the cells receive `up`. -/
def put (row : List FunElem) (up : Bool) (x : Assign) (A : List RC) : Assign :=
  A.foldl (fun x r => write x (get row r).var up) x

theorem put_mem {row : List FunElem} {up : Bool} : ∀ {A : List RC} {x : Assign} {j : Nat},
    (∃ r ∈ A, (get row r).var = j) → put row up x A j = up
  | [], _, _, h => by simp at h
  | r :: A, x, j, h => by
    change put row up (write x (get row r).var up) A j = up
    by_cases hA : ∃ r ∈ A, (get row r).var = j
    · exact put_mem hA
    · obtain ⟨q, hq, hj⟩ := h
      have hqr : q = r := by
        rcases List.mem_cons.mp hq with h | h
        · exact h
        · exact absurd ⟨q, h, hj⟩ hA
      subst hqr
      have : ∀ (A : List RC) (x : Assign), (¬ ∃ r ∈ A, (get row r).var = j) → put row up x A j = x j := by
        intro A
        induction A with
        | nil => intro x _; rfl
        | cons a A ih =>
          intro x hA
          change put row up (write x (get row a).var up) A j = x j
          rw [ih _ (fun ⟨r, hr, he⟩ => hA ⟨r, by simp [hr], he⟩)]
          have : j ≠ (get row a).var := fun he => hA ⟨a, by simp, he.symm⟩
          simp [write, this]
      rw [this _ _ hA]
      simp [write, hj]

theorem put_not_mem {row : List FunElem} {up : Bool} : ∀ {A : List RC} {x : Assign} {j : Nat},
    (¬ ∃ r ∈ A, (get row r).var = j) → put row up x A j = x j
  | [], _, _, _ => rfl
  | a :: A, x, j, hA => by
    change put row up (write x (get row a).var up) A j = x j
    rw [put_not_mem (fun ⟨r, hr, he⟩ => hA ⟨r, by simp [hr], he⟩)]
    have : j ≠ (get row a).var := fun he => hA ⟨a, by simp, he.symm⟩
    simp [write, this]

/-- The first loop sets a prefix: the shortest one, not empty, that reaches the lower bound, or the
whole row. -/
theorem fill_spec {e : Env} : ∀ {R : List RC} {value : Int} {v : Vec}, R ≠ [] → Ids e.row R →
    ∃ A B P, R = A ++ B ∧ A ≠ [] ∧
      fill e R value v = .ok (B, value + sumF e.row A, ⟨put e.row true v.x A, P⟩) ∧
      (e.b.min ≤ value + sumF e.row A ∨ B = []) ∧
      ∀ C r D, A = C ++ r :: D → C ≠ [] → value + sumF e.row C < e.b.min
  | [], _, _, h, _ => absurd rfl h
  | r :: rs, value, v, _, hI => by
    have he := elemOf_ok (e := e) (hI r (by simp))
    unfold fill
    rw [he, ok_bind]
    by_cases hv : e.b.min ≤ value + (get e.row r).factor
    · rw [if_pos hv]
      refine ⟨[r], rs, (give e.k v (get e.row r).var true (step e r)).P, rfl, by simp, ?_, Or.inl (by simpa [sumF] using hv), ?_⟩
      · simp [sumF, put, give]
      · intro C q D h hC
        cases C with
        | nil => exact absurd rfl hC
        | cons c C => simp at h
    · rw [if_neg hv]
      cases rs with
      | nil =>
        refine ⟨[r], [], (give e.k v (get e.row r).var true (step e r)).P, rfl, by simp, ?_, Or.inr rfl, ?_⟩
        · simp [sumF, put, give]
        · intro C q D h hC
          cases C with
          | nil => exact absurd rfl hC
          | cons c C => simp at h
      | cons q qs =>
        obtain ⟨A, B, P, h1, h2, h3, h4, h5⟩ := fill_spec (e := e) (R := q :: qs)
          (value := value + (get e.row r).factor)
          (v := give e.k v (get e.row r).var true (step e r)) (by simp)
          (fun a ha => hI a (by simp at ha ⊢; tauto))
        have hs : ∀ A, sumF e.row (r :: A) = (get e.row r).factor + sumF e.row A := by
          intro A; simp [sumF]
        refine ⟨r :: A, B, P, by simp [h1], by simp, ?_, ?_, ?_⟩
        · simp only
          rw [h3, hs, ← Int.add_assoc]
          rfl
        · rw [hs, ← Int.add_assoc]; exact h4
        · intro C q' D h hC
          cases C with
          | nil => exact absurd rfl hC
          | cons c C =>
            simp only [List.cons_append, List.cons.injEq] at h
            obtain ⟨rfl, h⟩ := h
            rw [hs, ← Int.add_assoc]
            by_cases hC' : C = []
            · subst hC'
              simp [sumF]
              omega
            · exact h5 C q' D h hC'

/-- The second loop sets a prefix inside the bounds, where each cell passed `stop_iterating`, and
unsets the next one. -/
theorem extend_spec {e : Env} : ∀ {R : List RC} {value : Int} {v : Vec}, Ids e.row R →
    (e.b.min ≤ value ∧ value ≤ e.b.max) →
    ∃ A B P, R = A ++ B ∧
      extend e R value v = .ok (B.drop 1, ⟨put e.row false (put e.row true v.x A) (B.take 1), P⟩) ∧
      (e.b.min ≤ value + sumF e.row A ∧ value + sumF e.row A ≤ e.b.max) ∧
      (∀ r ∈ A, stopIterating e.mode r.value (e.coin r.id) = true) ∧
      ∀ r ∈ B.head?, ¬ ((e.b.min ≤ value + sumF e.row (A ++ [r]) ∧
        value + sumF e.row (A ++ [r]) ≤ e.b.max) ∧
        stopIterating e.mode r.value (e.coin r.id) = true)
  | [], value, v, _, hb => by
    refine ⟨[], [], v.P, rfl, ?_, by simpa [sumF] using hb, by simp, by simp⟩
    simp [extend, put]
  | r :: rs, value, v, hI, hb => by
    have he := elemOf_ok (e := e) (hI r (by simp))
    unfold extend
    rw [he, ok_bind]
    have hs : ∀ A, sumF e.row (r :: A) = (get e.row r).factor + sumF e.row A := by
      intro A; simp [sumF]
    by_cases hv : (e.b.min ≤ value + (get e.row r).factor ∧ value + (get e.row r).factor ≤ e.b.max) ∧
        stopIterating e.mode r.value (e.coin r.id) = true
    · obtain ⟨A, B, P, h1, h2, h3, h4, h5⟩ := extend_spec (e := e) (R := rs)
        (value := value + (get e.row r).factor)
        (v := give e.k v (get e.row r).var true (step e r)) (fun a ha => hI a (by simp [ha])) hv.1
      refine ⟨r :: A, B, P, by simp [h1], ?_, ?_, ?_, ?_⟩
      · simp only [hv.1.1, hv.1.2, decide_true, Bool.and_self, if_true, hv.2]
        rw [h2]
        rfl
      · rw [hs, ← Int.add_assoc]; exact h3
      · intro q hq
        rcases List.mem_cons.mp hq with rfl | hq
        · exact hv.2
        · exact h4 q hq
      · intro q hq
        rw [List.cons_append, hs, ← Int.add_assoc]
        exact h5 q hq
    · refine ⟨[], r :: rs, (give e.k v (get e.row r).var false (step e r)).P, rfl, ?_, by simpa [sumF] using hb, by simp, ?_⟩
      · have : (if (decide (e.b.min ≤ value + (get e.row r).factor) &&
            decide (value + (get e.row r).factor ≤ e.b.max)) = true then
            stopIterating e.mode r.value (e.coin r.id) else false) = false := by
          by_cases h : e.b.min ≤ value + (get e.row r).factor ∧ value + (get e.row r).factor ≤ e.b.max
          · simp only [h.1, h.2, decide_true, Bool.and_self, if_true]
            simpa [h] using hv
          · rw [if_neg (by simpa using h)]
        simp only [this]
        simp [put, give]
      · intro q hq
        simp only [List.head?_cons, Option.mem_def, Option.some.injEq] at hq
        subst hq
        simpa [sumF] using hv

theorem rest_spec {e : Env} : ∀ {R : List RC} {v : Vec}, Ids e.row R →
    ∃ P, rest e R v = .ok ⟨put e.row false v.x R, P⟩
  | [], v, _ => ⟨v.P, rfl⟩
  | r :: rs, v, hI => by
    have he := elemOf_ok (e := e) (hI r (by simp))
    unfold rest
    rw [he, ok_bind]
    obtain ⟨P, h⟩ := rest_spec (e := e) (R := rs)
      (v := give e.k v (get e.row r).var false (step e r)) (fun a ha => hI a (by simp [ha]))
    exact ⟨P, by rw [h]; rfl⟩

/-- What the three loops do: they set a prefix `A` of the sorted row and unset the rest `B`. -/
theorem loops_spec {e : Env} {R : List RC} {v : Vec} (hI : Ids e.row R) (hne : R ≠ [] ∨ e.b.min ≤ 0) :
    ∃ A B P, R = A ++ B ∧
      loops e R v = .ok ⟨put e.row false (put e.row true v.x A) B, P⟩ ∧
      ((e.b.min ≤ 0 → 0 ≤ e.b.max → e.b.min ≤ sumF e.row A ∧ sumF e.row A ≤ e.b.max ∧
        ∀ r ∈ A, stopIterating e.mode r.value (e.coin r.id) = true) ∧
      (e.b.min ≤ 0 → e.b.max < 0 → A = []) ∧
      (0 < e.b.min →
        ∃ C D, A = C ++ D ∧ (∀ C' r D', C = C' ++ r :: D' → sumF e.row C' < e.b.min) ∧
          ((e.b.min ≤ sumF e.row C → sumF e.row C ≤ e.b.max →
            e.b.min ≤ sumF e.row A ∧ sumF e.row A ≤ e.b.max ∧
            ∀ r ∈ D, stopIterating e.mode r.value (e.coin r.id) = true) ∧
          (sumF e.row C < e.b.min → A = C ∧ B = [])))) := by
  have put_app : ∀ (up : Bool) (x : Assign) (A B : List RC),
      put e.row up (put e.row up x A) B = put e.row up x (A ++ B) := by
    intro up x A B; simp [put]
  have sum_app : ∀ A B : List RC, sumF e.row (A ++ B) = sumF e.row A + sumF e.row B := by
    intro A B; simp [sumF]
  unfold loops
  by_cases hm : e.b.min ≤ 0
  · rw [if_pos hm, ok_bind]
    simp only
    by_cases hx : 0 ≤ e.b.max
    · rw [if_pos ⟨hm, hx⟩]
      obtain ⟨A, B, P, h1, h2, h3, h4, _⟩ := extend_spec (e := e) (R := R) (value := 0) (v := v) hI
        ⟨hm, hx⟩
      rw [h2, ok_bind]
      simp only
      obtain ⟨P', h5⟩ := rest_spec (e := e) (R := B.drop 1)
        (v := ⟨put e.row false (put e.row true v.x A) (B.take 1), P⟩)
        (fun a ha => hI a (by rw [h1]; simp [List.mem_of_mem_drop ha]))
      refine ⟨A, B, P', h1, ?_, ?_, fun _ h => absurd h (by omega), fun h => absurd h (by omega)⟩
      · rw [h5, put_app, List.take_append_drop]
      · intro _ _
        simp only [Int.zero_add] at h3
        exact ⟨h3.1, h3.2, h4⟩
    · rw [if_neg (fun h => hx h.2), ok_bind]
      simp only
      obtain ⟨P', h5⟩ := rest_spec (e := e) (R := R) (v := v) hI
      exact ⟨[], R, P', rfl, by rw [h5]; rfl, fun _ h => absurd h hx, fun _ _ => rfl,
        fun h => absurd h (by omega)⟩
  · rw [if_neg hm]
    have hR : R ≠ [] := by
      rcases hne with h | h
      · exact h
      · exact absurd h hm
    obtain ⟨C, R', P, h1, h2, h3, h4, h5⟩ := fill_spec (e := e) (R := R) (value := 0) (v := v) hR hI
    rw [h3, ok_bind]
    simp only [Int.zero_add] at h4 h5 ⊢
    have hpre : ∀ C' r D', C = C' ++ r :: D' → sumF e.row C' < e.b.min := by
      intro C' r D' h
      by_cases hC : C' = []
      · subst hC
        simp [sumF]
        omega
      · exact h5 C' r D' h hC
    have hI' : Ids e.row R' := fun a ha => hI a (by rw [h1]; simp [ha])
    by_cases hv : e.b.min ≤ sumF e.row C ∧ sumF e.row C ≤ e.b.max
    · rw [if_pos hv]
      obtain ⟨D, B, P2, g1, g2, g3, g4, _⟩ := extend_spec (e := e) (R := R') (value := sumF e.row C)
        (v := ⟨put e.row true v.x C, P⟩) hI' hv
      rw [g2, ok_bind]
      simp only
      obtain ⟨P', g5⟩ := rest_spec (e := e) (R := B.drop 1)
        (v := ⟨put e.row false (put e.row true (put e.row true v.x C) D) (B.take 1), P2⟩)
        (fun a ha => hI' a (by rw [g1]; simp [List.mem_of_mem_drop ha]))
      refine ⟨C ++ D, B, P', by rw [h1, g1, List.append_assoc], ?_, fun h => absurd h hm,
        fun h => absurd h hm, fun _ => ⟨C, D, rfl, hpre, ?_, fun h => absurd h (by omega)⟩⟩
      · rw [g5, put_app, put_app, List.take_append_drop]
      · intro _ _
        rw [sum_app]
        exact ⟨g3.1, g3.2, g4⟩
    · rw [if_neg hv, ok_bind]
      simp only
      obtain ⟨P', g5⟩ := rest_spec (e := e) (R := R') (v := ⟨put e.row true v.x C, P⟩) hI'
      refine ⟨C, R', P', h1, g5, fun h => absurd h hm, fun h => absurd h hm,
        fun _ => ⟨C, [], by simp, hpre, fun a b => absurd ⟨a, b⟩ hv, ?_⟩⟩
      intro h
      rcases h4 with h4 | h4
      · omega
      · exact ⟨rfl, h4⟩

/-! ## The left-hand side after an update -/

theorem mem_ids {row : List FunElem} {R : List RC} (hp : (R.map RC.id).Perm (List.range row.length)) :
    Ids row R := by
  intro r hr
  exact List.mem_range.mp (hp.mem_iff.mp (List.mem_map_of_mem hr))

/-- Two cells with the same variable are the same cell. -/
theorem var_inj {row : List FunElem} (hnd : (row.map FunElem.var).Nodup) {R : List RC}
    (hI : Ids row R) {a b : RC} (ha : a ∈ R) (hb : b ∈ R)
    (h : (get row a).var = (get row b).var) : a.id = b.id := by
  have h1 := hI a ha
  have h2 := hI b hb
  unfold get at h
  rw [List.getElem?_eq_getElem h1, List.getElem?_eq_getElem h2] at h
  simp only [Option.getD_some] at h
  have := List.nodup_iff_injective_getElem.mp hnd
  have h4 := @this ⟨a.id, by simpa using h1⟩ ⟨b.id, by simpa using h2⟩ (by simpa using h)
  exact congrArg Fin.val h4

theorem values {row : List FunElem} (hnd : (row.map FunElem.var).Nodup) {A B : List RC}
    (hp : ((A ++ B).map RC.id).Perm (List.range row.length)) (x : Assign) :
    (∀ r ∈ A, put row false (put row true x A) B (get row r).var = true) ∧
    (∀ r ∈ B, put row false (put row true x A) B (get row r).var = false) ∧
    (∀ j, (∀ e ∈ row, e.var ≠ j) → put row false (put row true x A) B j = x j) ∧
    lhs (put row false (put row true x A) B) row = sumF row A := by
  have hI := mem_ids hp
  have hndi : ((A ++ B).map RC.id).Nodup := hp.nodup_iff.mpr List.nodup_range
  have hget : ∀ r ∈ A ++ B, get row r ∈ row := by
    intro r hr
    unfold get
    rw [List.getElem?_eq_getElem (hI r hr)]
    exact List.getElem_mem _
  have h1 : ∀ r ∈ A, put row false (put row true x A) B (get row r).var = true := by
    intro r hr
    rw [put_not_mem]
    · exact put_mem ⟨r, hr, rfl⟩
    · rintro ⟨q, hq, he⟩
      have := var_inj hnd hI (a := q) (b := r) (by simp [hq]) (by simp [hr]) he
      rw [List.map_append, List.nodup_append] at hndi
      exact hndi.2.2 _ (List.mem_map_of_mem hr) _ (List.mem_map_of_mem hq) this.symm
  have h2 : ∀ r ∈ B, put row false (put row true x A) B (get row r).var = false := by
    intro r hr
    exact put_mem ⟨r, hr, rfl⟩
  refine ⟨h1, h2, ?_, ?_⟩
  · intro j hj
    rw [put_not_mem, put_not_mem]
    · rintro ⟨q, hq, he⟩
      exact hj _ (hget q (by simp [hq])) he
    · rintro ⟨q, hq, he⟩
      exact hj _ (hget q (by simp [hq])) he
  · generalize put row false (put row true x A) B = y at h1 h2
    have hrow : row = (List.range row.length).map fun i => (row[i]?).getD ⟨0, 0⟩ := by
      apply List.ext_getElem?
      intro i
      by_cases hi : i < row.length
      · simp [hi]
      · simp [hi]
    have hF : ∀ F : FunElem → Int, (row.map F).sum = ((A ++ B).map fun r => F (get row r)).sum := by
      intro F
      have : (row.map F) = (List.range row.length).map fun i => F ((row[i]?).getD ⟨0, 0⟩) := by
        conv_lhs => rw [hrow]
        simp
      rw [this]
      have h := ((hp.map fun i => F ((row[i]?).getD ⟨0, 0⟩)).sum_eq).symm
      rw [h, List.map_map]
      rfl
    unfold lhs
    rw [hF, List.map_append, List.sum_append]
    have e1 : (A.map fun r => if y (get row r).var then (get row r).factor else 0) =
        A.map fun r => (get row r).factor := by
      apply List.map_congr_left
      intro r hr
      rw [h1 r hr, if_pos rfl]
    have e2 : (B.map fun r => if y (get row r).var then (get row r).factor else 0) =
        B.map fun _ => (0 : Int) := by
      apply List.map_congr_left
      intro r hr
      rw [h2 r hr]
      rfl
    rw [e1, e2]
    simp [sumF]

/-! ## The constructor -/

theorem ctors_spec : ∀ {csts : List Merged} {bs : List Bound},
    ctors csts = .ok bs → bs.length = csts.length ∧
    ∀ (k : Nat) (c : Merged), csts[k]? = some c → ∃ b, bs[k]? = some b ∧ ctor c = .ok b
  | [], bs, h => by
    have : ([] : List Bound) = bs := Except.ok.inj h
    subst this
    simp
  | c :: cs, bs, h => by
    unfold ctors at h
    obtain ⟨b, hb, h⟩ := bind_eq_ok.mp h
    obtain ⟨bs', hbs, h⟩ := bind_eq_ok.mp h
    have := Except.ok.inj h
    subst this
    obtain ⟨h1, h2⟩ := ctors_spec hbs
    refine ⟨by simp [h1], ?_⟩
    intro k d hk
    cases k with
    | zero =>
      simp only [List.getElem?_cons_zero, Option.some.injEq] at hk
      subst hk
      exact ⟨b, rfl, hb⟩
    | succ k => exact h2 k d (by simpa using hk)

/-- The bounds of the constructor: the coefficients are 1 or -1, and the bounds are those of the
constraint as far as the left-hand side can tell. -/
theorem ctor_facts {c : Merged} {b : Bound} (h : ctor c = .ok b) :
    (∀ e ∈ c.elems, e.factor = 1 ∨ e.factor = -1) ∧ b.min ≤ b.max ∧
    (∀ x, (b.min ≤ lhs x c.elems ∧ lhs x c.elems ≤ b.max) ↔ Respects c x) ∧
    (c.min ≤ 0 → b.min ≤ 0) ∧ (0 ≤ c.max → 0 ≤ b.max) ∧ (c.max < 0 → b.max < 0) := by
  unfold ctor at h
  obtain ⟨_, h1, h⟩ := bind_eq_ok.mp h
  obtain ⟨_, h2, h⟩ := bind_eq_ok.mp h
  rw [check_eq_ok] at h1 h2
  have := Except.ok.inj h
  have hu : ∀ e ∈ c.elems, e.factor = 1 ∨ e.factor = -1 := by
    intro e he
    have h3 := List.all_eq_true.mp h1 e he
    simp only [decide_eq_true_eq] at h3
    rcases Int.natAbs_eq e.factor with h | h <;> rw [h3] at h
    · exact Or.inl h
    · exact Or.inr h
  have hr : ∀ x, -((c.elems.filter fun e => !decide (e.factor > 0)).length : Int) ≤ lhs x c.elems ∧
      lhs x c.elems ≤ ((c.elems.filter fun e => decide (e.factor > 0)).length : Int) := by
    intro x
    have hu' := hu
    generalize c.elems = es at hu'
    induction es with
    | nil => simp [lhs]
    | cons e es ih =>
      have ih := ih (fun d hd => hu' d (by simp [hd]))
      unfold lhs at ih ⊢
      simp only [List.map_cons, List.sum_cons, List.filter_cons, gt_iff_lt] at ih ⊢
      rcases hu' e (by simp) with h | h <;> rw [h] <;>
        cases x e.var <;> simp <;> omega
  refine ⟨hu, ?_, ?_, ?_, ?_, ?_⟩
  · rw [← this]; simpa using h2
  · intro x
    rw [← this]
    unfold Respects
    have := hr x
    split
    · rfl
    · simp only
      omega
  all_goals
    rw [← this]
    split <;> simp only <;> omega

/-- What the constructor keeps. -/
theorem make_facts {csts : List Merged} {n : Nat} {s : Slv} (h : make csts n = .ok s) :
    s.kind = .inequalities101 ∧ s.rows = csts.map Merged.elems ∧
    ∀ (k : Nat) (c : Merged), csts[k]? = some c →
      ∃ b, rowOf s k = .ok c.elems ∧ boundOf s k = .ok b ∧ ctor c = .ok b := by
  unfold make at h
  obtain ⟨_, _, h⟩ := bind_eq_ok.mp h
  obtain ⟨_, _, h⟩ := bind_eq_ok.mp h
  obtain ⟨bs, hbs, h⟩ := bind_eq_ok.mp h
  have := Except.ok.inj h
  subst this
  refine ⟨rfl, rfl, fun k c hk => ?_⟩
  obtain ⟨b, hb1, hb2⟩ := (ctors_spec hbs).2 k c hk
  exact ⟨b, by simp [rowOf, hk], by simp [boundOf, hb1], hb2⟩

theorem rowValue_101 (x : Assign) (es : List FunElem) : rowValue .inequalities101 x es = lhs x es := by
  rw [rowValue_eq, lhs]
  congr 1
  apply List.map_congr_left
  intro e _
  change e.factor * _ = _
  cases x e.var <;> simp

theorem isValid_make {csts : List Merged} {n : Nat} {s : Slv} (h : make csts n = .ok s)
    {k : Nat} {c : Merged} (hk : csts[k]? = some c) (x : Assign) :
    ∃ v : Bool, isValidConstraint s k x = .ok v ∧ (v = true ↔ Respects c x) := by
  obtain ⟨hkind, _, hrows⟩ := make_facts h
  obtain ⟨b, hr, hb, hc⟩ := hrows k c hk
  unfold isValidConstraint
  rw [hr, hb, hkind]
  simp only [ok_bind]
  refine ⟨_, rfl, ?_⟩
  rw [rowValue_101, ← (ctor_facts hc).2.2.1 x]
  simp

theorem cells_ids (s : Slv) (c : CostFun) (m : Mem) (x : Assign) (row : List FunElem) :
    (cells s c m x row).map RC.id = List.range row.length := by
  unfold cells
  rw [List.map_map]
  apply List.ext_getElem?
  intro i
  by_cases hi : i < row.length
  · simp [hi]
  · simp [hi]

/-- An update, step by step. -/
theorem update_eq {csts : List Merged} {n : Nat} {s : Slv} (hs : make csts n = .ok s) {k : Nat}
    {c : Merged} (hk : csts[k]? = some c) {b : Bound} (hb : boundOf s k = .ok b)
    (hnd : (c.elems.map FunElem.var).Nodup)
    {mode : ObjType} {o : Oracle} (ho : o.Ok mode) (p : Param) (cost : CostFun) (x : Assign) (m : Mem)
    (hne : c.elems ≠ [] ∨ b.min ≤ 0) :
    ∃ A B P, o.sort (cells s cost (decrease m k c.elems p.theta) x c.elems) = A ++ B ∧
      ((A ++ B).map RC.id).Perm (List.range c.elems.length) ∧
      let x' := put c.elems false (put c.elems true x A) B
      lhs x' c.elems = sumF c.elems A ∧
      (∀ r ∈ A, x' (get c.elems r).var = true) ∧ (∀ r ∈ B, x' (get c.elems r).var = false) ∧
      (∀ j, (∀ e ∈ c.elems, e.var ≠ j) → x' j = x j) ∧
      (Respects c x' → update mode o p s cost k x m =
        .ok (x', { decrease m k c.elems p.theta with P := P })) ∧
      (¬ Respects c x' → update mode o p s cost k x m =
        .error (.contract "is_valid_constraint(*this, k, x)")) ∧
      ((b.min ≤ 0 → 0 ≤ b.max → b.min ≤ sumF c.elems A ∧ sumF c.elems A ≤ b.max ∧
        ∀ r ∈ A, stopIterating mode r.value (o.coin r.id) = true) ∧
      (b.min ≤ 0 → b.max < 0 → A = []) ∧
      (0 < b.min →
        ∃ C D, A = C ++ D ∧ (∀ C' r D', C = C' ++ r :: D' → sumF c.elems C' < b.min) ∧
          ((b.min ≤ sumF c.elems C → sumF c.elems C ≤ b.max →
            b.min ≤ sumF c.elems A ∧ sumF c.elems A ≤ b.max ∧
            ∀ r ∈ D, stopIterating mode r.value (o.coin r.id) = true) ∧
          (sumF c.elems C < b.min → A = C ∧ B = [])))) := by
  obtain ⟨hkind, _, hrows⟩ := make_facts hs
  obtain ⟨b', hr, hb', hc⟩ := hrows k c hk
  rw [hb] at hb'
  have := Except.ok.inj hb'
  subst this
  have hperm : ((o.sort (cells s cost (decrease m k c.elems p.theta) x c.elems)).map RC.id).Perm
      (List.range c.elems.length) := by
    have := ((ho (cells s cost (decrease m k c.elems p.theta) x c.elems)).1).map RC.id
    rwa [cells_ids] at this
  have hne' : o.sort (cells s cost (decrease m k c.elems p.theta) x c.elems) ≠ [] ∨ b.min ≤ 0 := by
    rcases hne with h | h
    · left
      intro h0
      rw [h0] at hperm
      have := hperm.length_eq
      simp only [List.map_nil, List.length_nil, List.length_range] at this
      exact h (List.length_eq_zero_iff.mp this.symm)
    · exact Or.inr h
  obtain ⟨A, B, P, h1, h2, h3⟩ := loops_spec
    (e := ⟨mode, k, c.elems, b, p.kappa, p.delta, o.coin⟩)
    (v := ⟨x, (decrease m k c.elems p.theta).P⟩) (mem_ids hperm) hne'
  rw [h1] at hperm
  obtain ⟨g1, g2, g3, g4⟩ := values hnd hperm x
  obtain ⟨v, hv, hvr⟩ := isValid_make hs hk (put c.elems false (put c.elems true x A) B)
  refine ⟨A, B, P, h1, hperm, g4, g1, g2, g3, ?_, ?_, h3⟩
  · intro hR
    unfold update
    rw [hr, hb]
    simp only [ok_bind]
    rw [h2]
    simp only [ok_bind]
    rw [hv, hvr.mpr hR]
    rfl
  · intro hR
    unfold update
    rw [hr, hb]
    simp only [ok_bind]
    rw [h2]
    simp only [ok_bind]
    rw [hv]
    have : v = false := by
      cases v
      · rfl
      · exact absurd (hvr.mp rfl) hR
    rw [this]
    rfl

/-! ## The constructor is that of the -1/0/1 inequality solver -/

theorem ctor_eq (m : Merged) :
    ctor m = (SolverCtor.inequalities101 m).map fun b => { b with negative := 0 } := by
  unfold ctor SolverCtor.inequalities101
  cases hall : m.elems.all fun e => decide (e.factor.natAbs = 1)
  · rfl
  · simp only [check_true, ok_bind]
    have h1 : ∀ e ∈ m.elems, e.factor.natAbs = 1 := by
      intro e he
      simpa using List.all_eq_true.mp hall e he
    have hcount : (m.elems.filter fun e => !decide (e.factor > 0)).length = negatives m.elems ∧
        (m.elems.filter fun e => decide (e.factor > 0)).length =
          m.elems.length - negatives m.elems ∧ negatives m.elems ≤ m.elems.length := by
      unfold negatives
      generalize m.elems = es at h1
      induction es with
      | nil => simp
      | cons e es ih =>
        obtain ⟨g1, g2, g3⟩ := ih fun d hd => h1 d (by simp [hd])
        have he := h1 e (by simp)
        simp only [List.filter_cons, List.length_cons]
        rcases Int.natAbs_eq e.factor with h | h <;> rw [he] at h <;> rw [h] <;>
          simp only [gt_iff_lt, Nat.cast_one, Int.reduceLT, Int.reduceNeg, decide_true, decide_false,
            Bool.not_true, Bool.not_false, Bool.false_eq_true, if_true, if_false,
            List.length_cons] at * <;> omega
    rw [hcount.1, hcount.2.1]
    by_cases hmm : m.min = m.max
    · simp only [hmm, if_true]
      cases decide (m.max ≤ m.max) <;> rfl
    · simp only [hmm, if_false]
      cases decide (max (-(negatives m.elems : Int)) m.min ≤
        min ((m.elems.length - negatives m.elems : Nat) : Int) m.max) <;> rfl

theorem ctors_eq : ∀ csts : List Merged,
    ctors csts = (Itm.ctors .inequalities101 csts).map
      (List.map fun b : Bound => { b with negative := 0 })
  | [] => rfl
  | c :: cs => by
    unfold ctors Itm.ctors
    rw [ctor_eq, ctors_eq cs]
    change _ = Except.map _ (do
      let b ← SolverCtor.inequalities101 c
      let bs ← Itm.ctors .inequalities101 cs
      Except.ok (b :: bs) : Outcome (List Bound))
    cases SolverCtor.inequalities101 c with
    | error f => rfl
    | ok b =>
      cases Itm.ctors .inequalities101 cs with
      | error f => rfl
      | ok bs => rfl

/-- The constructor of the random solver builds the -1/0/1 inequality solver, without
`negative_factor`. -/
theorem make_eq (csts : List Merged) (n : Nat) :
    make csts n = (makeSlv .inequalities101 csts n).map strip := by
  unfold make makeSlv
  rw [ctors_eq]
  cases Sparse.make csts n with
  | error f => rfl
  | ok _ =>
    cases reducedCostsSize csts with
    | error f => rfl
    | ok cap =>
      cases Itm.ctors .inequalities101 csts with
      | error f => rfl
      | ok bs => rfl

/-- What the loops of `solver_functor` read does not depend on `negative_factor`. -/
theorem isValid_strip (s : Slv) (k : Nat) (x : Assign) :
    isValidConstraint (strip s) k x = isValidConstraint s k x := by
  unfold isValidConstraint boundOf strip
  simp only [List.getElem?_map]
  cases h : rowOf s k with
  | error f =>
    have : rowOf { s with bounds := s.bounds.map fun b => { b with negative := 0 } } k = .error f := h
    rw [this]
    rfl
  | ok r =>
    have : rowOf { s with bounds := s.bounds.map fun b => { b with negative := 0 } } k = .ok r := h
    rw [this]
    cases s.bounds[k]? <;> rfl

end Bx.Rand
