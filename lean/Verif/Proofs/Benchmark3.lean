import Verif.Proofs.Benchmark2
import Mathlib.Data.Finset.Card
import Mathlib.Data.List.Perm.Basic
import Mathlib.Data.Finset.Image
import Mathlib.Data.Finset.Dedup
import Mathlib.Order.WithBot
import Mathlib.Algebra.Order.Ring.Rat
import Mathlib.Tactic.Linarith

/-!
# Lemmas on the column, the ranks and the averages of a benchmark
-/

namespace Bx.Benchmark

open Bx.Params Bx.Utils Bx.Spec.Benchmark

theorem mapM_okB {α β : Type} {f : α → BM β} {g : α → β} : ∀ l : List α,
    (∀ x ∈ l, f x = .ok (g x)) → l.mapM f = .ok (l.map g)
  | [], _ => rfl
  | x :: l, h => by
    rw [List.mapM_cons, h x (by simp), okBind, mapM_okB l fun y hy => h y (by simp [hy]), okBind]
    rfl

theorem mapM_getB {α β : Type} {f : α → BM β} : ∀ (l : List α) (r : List β),
    l.mapM f = .ok r → r.length = l.length ∧ ∀ (i : Nat) (x : α) (y : β),
      l[i]? = some x → r[i]? = some y → f x = .ok y
  | [], r, h => by
    simp only [List.mapM_nil, pure, Except.pure, Except.ok.injEq] at h
    subst h; simp
  | x :: l, r, h => by
    rw [List.mapM_cons] at h
    obtain ⟨y, h1, h⟩ := bindOk.1 h
    obtain ⟨ys, h2, h⟩ := bindOk.1 h
    simp only [pure, Except.pure, Except.ok.injEq] at h
    subst h
    obtain ⟨k1, k2⟩ := mapM_getB l ys h2
    refine ⟨by simp [k1], ?_⟩
    intro i a b ha hb
    cases i with
    | zero => simp at ha hb; subst ha hb; exact h1
    | succ i => exact k2 i a b (by simpa using ha) (by simpa using hb)

/-! ## The column -/

/-- The rows have a cell per solver. -/
def Wide (t : Table) : Prop := ∀ r ∈ t.rows, r.2.length = t.solvers.length

theorem loaded_get {t : Table} {b : Bench} (h : Loaded t b) (hw : Wide t) {i j : Nat}
    {r : Text × List D} (hr : t.rows[i]? = some r) {v : D} (hv : r.2[j]? = some v) :
    b.array.get i j = .ok v := by
  have hj := (List.getElem?_eq_some_iff.1 hv).1
  have hrl := hw r (List.mem_of_getElem? hr)
  obtain ⟨_, _, h3⟩ := h
  have hne : t.solvers ≠ [] := by intro h0; rw [hrl, h0] at hj; simp at hj
  rw [if_neg hne] at h3
  refine holds_get h3 ?_
  rw [flatten_get _ t.solvers.length (by
    intro q hq
    obtain ⟨p, hp, rfl⟩ := List.mem_map.1 hq
    exact hw p hp) i j r.2 (by simp [hr]) (by omega)]
  exact hv

theorem saveCells_ok (txt : D → Text) (a : Dyn) (i : Nat) : ∀ (vs : List D) (j : Nat),
    (∀ k v, vs[k]? = some v → a.get i (j + k) = .ok v) →
    saveCells txt a i vs.length j = .ok (vs.flatMap fun v => txt v ++ [','])
  | [], _, _ => rfl
  | v :: vs, j, h => by
    have h0 := h 0 v (by simp)
    have ih := saveCells_ok txt a i vs (j + 1) (by
      intro k w hk
      have := h (k + 1) w (by simpa using hk)
      rwa [show j + 1 + k = j + (k + 1) by omega])
    simp only [List.length_cons, saveCells]
    rw [show a.get i j = .ok v from h0, okBind, ih, okBind]
    simp

theorem cells_line (m : Text) (txt : D → Text) (c : D) (rest : Text) : ∀ vs : List D,
    m ++ ',' :: (vs.flatMap fun v => txt v ++ [',']) ++ txt c ++ '\n' :: rest =
      line m ((vs ++ [c]).map txt) ++ rest := by
  have key : ∀ vs : List D, ',' :: (vs.flatMap fun v => txt v ++ [',']) ++ txt c =
      ((vs ++ [c]).map txt).flatMap fun f => ',' :: f := by
    intro vs
    induction vs with
    | nil => simp
    | cons v vs ih =>
      simp only [List.flatMap_cons, List.cons_append, List.map_cons, List.append_assoc] at ih ⊢
      rw [← ih]
      simp
  intro vs
  rw [line, ← key vs]
  simp

theorem saveLines_ok (txt : D → Text) {t : Table} {b : Bench} (h : Loaded t b) (hw : Wide t) :
    ∀ (rows : List (Text × List D)) (pre : List (Text × List D)) (cs : List D),
      t.rows = pre ++ rows → cs.length = rows.length →
      saveLines txt b pre.length (rows.map Prod.fst) cs =
        .ok ((rows.zip cs).flatMap fun p => line p.1.1 ((p.1.2 ++ [p.2]).map txt))
  | [], _, _, _, _ => by simp [saveLines]
  | r :: rows, pre, [], _, hc => by simp at hc
  | r :: rows, pre, c :: cs, ht, hc => by
    have hr : t.rows[pre.length]? = some r := by rw [ht]; simp
    have hcells := saveCells_ok txt b.array pre.length r.2 0 (by
      intro k v hk
      rw [Nat.zero_add]
      exact loaded_get h hw hr hk)
    have ih := saveLines_ok txt h hw rows (pre ++ [r]) cs (by simp [ht]) (by simpa using hc)
    simp only [List.length_append, List.length_singleton] at ih
    have hl : b.solvers.length = r.2.length := by
      rw [h.2.1, hw r (List.mem_of_getElem? hr)]
    simp only [List.map_cons, saveLines]
    rw [hl, hcells, okBind, ih, okBind]
    simp only [List.zip_cons_cons, List.flatMap_cons]
    rw [← cells_line]

theorem save_ok (txt : D → Text) {t : Table} {b : Bench} (h : Loaded t b) (hw : Wide t)
    (name : Text) (cs : List D) (hc : cs.length = t.rows.length) :
    save txt b name cs = .ok (csv txt (t.add name cs)) := by
  have := saveLines_ok txt h hw t.rows [] cs rfl hc
  unfold save
  rw [h.1]
  simp only [List.length_nil] at this
  rw [this, okBind]
  simp only [saveHeader, csv, Table.add, line, h.2.1, List.flatMap_append, List.flatMap_cons,
    List.flatMap_nil, List.append_nil, List.flatMap_map]
  simp

theorem distances_ok {t : Table} {b : Bench} (h : Loaded t b) (hw : Wide t) (cs : List D)
    (hc : cs.length = t.rows.length) :
    distances b cs = .ok ((List.range t.solvers.length).map fun j =>
      distance (t.rows.map fun r => r.2.getD j .pinf) cs) := by
  unfold distances
  rw [h.2.1]
  refine mapM_okB _ ?_
  intro j hj
  have hj' := List.mem_range.1 hj
  have : (List.range cs.length).mapM (fun i => b.array.get i j) =
      .ok ((List.range cs.length).map fun i => ((t.rows.map fun r => r.2.getD j .pinf)).getD i .pinf) := by
    refine mapM_okB _ ?_
    intro i hi
    have hi' := List.mem_range.1 hi
    rw [hc] at hi'
    have hr : t.rows[i]? = some t.rows[i] := by simp [hi']
    have hrl := hw _ (List.getElem_mem hi')
    rw [loaded_get h hw hr (v := t.rows[i].2[j]'(by omega)) (by simp [hrl, hj'])]
    simp [hi', List.getD_eq_getElem?_getD, hrl, hj']
  rw [this, okBind]
  congr 2
  refine List.ext_getElem (by simp [hc]) ?_
  intro i h1 h2
  simp at h1 h2
  simp [h2]

/-! ## The ranks -/

/-- A number, negated for a maximization. -/
def signed : ObjType → Rat → Rat
  | .minimize, q => q
  | .maximize, q => -q

theorem signed_inj {t : ObjType} {a b : Rat} : signed t a = signed t b ↔ a = b := by
  cases t <;> simp [signed]

theorem signed_lt {t : ObjType} {a b : Rat} : signed t a < signed t b ↔
    (match t with | .minimize => a < b | .maximize => b < a) := by
  cases t <;> simp [signed]

/-- The order of the results. -/
def key (t : ObjType) : D → WithTop Rat
  | .fin q => ((signed t q : Rat) : WithTop Rat)
  | _ => ⊤

theorem key_inj {t : ObjType} {a b : D} (ha : Proper a) (hb : Proper b) (h : key t a = key t b) :
    a = b := by
  cases a <;> cases b <;> simp_all [key, Proper, signed_inj]

theorem better_key {t : ObjType} {a b : D} (ha : Proper a) (hb : Proper b) :
    better t a b = true ↔ key t a < key t b := by
  cases a <;> cases b <;> simp_all [key, Proper, better, signed_lt] <;> cases t <;> simp

theorem before_key {t : ObjType} {a b : Res} (ha : Proper a.value) (hb : Proper b.value) :
    before t a b = true ↔ key t a.value < key t b.value := by
  cases ha' : a.value <;> cases hb' : b.value <;>
    simp_all [key, Proper, before, isValid, signed_lt] <;> cases t <;> simp [D.lt]

theorem lt_key {a b : D} (ha : Proper a) (hb : Proper b) :
    D.lt a b = true ↔ key .minimize a < key .minimize b := by
  cases a <;> cases b <;> simp_all [key, Proper, D.lt, signed_lt]

theorem eq_key {t : ObjType} {a b : D} (ha : Proper a) (hb : Proper b) :
    D.eq a b = true ↔ key t a = key t b := by
  cases a <;> cases b <;> simp_all [key, Proper, D.eq, signed_inj]

/-- The number of keys below a key. -/
def below (t : ObjType) (l : List Res) (k : WithTop Rat) : Nat :=
  ((l.map fun x => key t x.value).toFinset.filter (· < k)).card

theorem rankLoop_spec (t : ObjType) : ∀ (xs : List Res) (r : Nat) (q : Res),
    (∀ x ∈ q :: xs, Proper x.value) →
    (q :: xs).Pairwise (fun a b => key t a.value ≤ key t b.value) →
    rankLoop r q.value xs =
      xs.map fun x => { x with rank := r + below t (q :: xs) (key t x.value) }
  | [], _, _, _, _ => rfl
  | x :: xs, r, q, hp, hs => by
    have hq := hp q (by simp)
    have hx := hp x (by simp)
    have hs' := (List.pairwise_cons.1 hs).2
    have hqx : key t q.value ≤ key t x.value := (List.pairwise_cons.1 hs).1 x (by simp)
    have hxy : ∀ y ∈ x :: xs, key t x.value ≤ key t y.value := by
      intro y hy
      rcases List.mem_cons.1 hy with rfl | hy
      · exact le_refl _
      · exact (List.pairwise_cons.1 hs').1 y hy
    by_cases he : key t q.value = key t x.value
    · have hd : D.eq x.value q.value = true := (eq_key hx hq (t := t)).2 he.symm
      have hset : ∀ k, below t (q :: x :: xs) k = below t (x :: xs) k := by
        intro k; simp [below, he]
      rw [rankLoop]
      simp only [hd, Bool.not_true, Bool.false_eq_true, if_false, List.map_cons, hset]
      rw [rankLoop_spec t xs r x (fun y hy => hp y (by simp [List.mem_cons.1 hy])) hs']
      congr 1
      have : below t (x :: xs) (key t x.value) = 0 := by
        unfold below
        rw [Finset.card_eq_zero, Finset.filter_eq_empty_iff]
        intro k hk
        simp only [List.mem_toFinset, List.mem_map] at hk
        obtain ⟨y, hy, rfl⟩ := hk
        exact not_lt.2 (hxy y hy)
      rw [this]
      rfl
    · have hlt : key t q.value < key t x.value := lt_of_le_of_ne hqx he
      have hd : D.eq x.value q.value = false := by
        cases hh : D.eq x.value q.value with
        | false => rfl
        | true => exact absurd ((eq_key hx hq (t := t)).1 hh).symm he
      have hset : ∀ y ∈ x :: xs, below t (q :: x :: xs) (key t y.value) =
          below t (x :: xs) (key t y.value) + 1 := by
        intro y hy
        unfold below
        rw [List.map_cons, List.toFinset_cons, Finset.filter_insert,
          if_pos (lt_of_lt_of_le hlt (hxy y hy)), Finset.card_insert_of_notMem]
        intro hm
        simp only [Finset.mem_filter, List.mem_toFinset, List.mem_map] at hm
        obtain ⟨⟨z, hz, hzq⟩, _⟩ := hm
        have := hxy z hz
        rw [hzq] at this
        exact absurd hlt (not_lt.2 this)
      rw [rankLoop]
      simp only [hd, Bool.not_false, if_true]
      rw [rankLoop_spec t xs (r + 1) x (fun y hy => hp y (by simp [List.mem_cons.1 hy])) hs',
        List.map_cons]
      have h0 : below t (x :: xs) (key t x.value) = 0 := by
        unfold below
        rw [Finset.card_eq_zero, Finset.filter_eq_empty_iff]
        intro k hk
        simp only [List.mem_toFinset, List.mem_map] at hk
        obtain ⟨y, hy, rfl⟩ := hk
        exact not_lt.2 (hxy y hy)
      congr 1
      · rw [hset x (by simp), h0]
      · refine List.map_congr_left fun y hy => ?_
        rw [hset y (by simp [hy])]
        congr 1
        omega

theorem below_dense {t : ObjType} {l : List Res} (hp : ∀ x ∈ l, Proper x.value) {v : D}
    (hv : Proper v) : below t l (key t v) + 1 = denseRank t (l.map Res.value) v := by
  unfold below denseRank
  congr 1
  rw [← List.card_toFinset]
  have himg : (l.map fun x => key t x.value).toFinset.filter (· < key t v) =
      (((l.map Res.value).filter fun w => better t w v).toFinset).image (key t) := by
    ext k
    simp only [Finset.mem_filter, List.mem_toFinset, List.mem_map, Finset.mem_image,
      List.mem_filter]
    constructor
    · rintro ⟨⟨x, hx, rfl⟩, hk⟩
      exact ⟨x.value, ⟨⟨x, hx, rfl⟩, (better_key (hp x hx) hv).2 hk⟩, rfl⟩
    · rintro ⟨w, ⟨⟨x, hx, rfl⟩, hb⟩, rfl⟩
      exact ⟨⟨x, hx, rfl⟩, (better_key (hp x hx) hv).1 hb⟩
  rw [himg, Finset.card_image_of_injOn]
  intro a ha b hb hab
  simp only [Finset.mem_coe, List.mem_toFinset, List.mem_filter, List.mem_map] at ha hb
  obtain ⟨⟨x, hx, rfl⟩, _⟩ := ha
  obtain ⟨⟨y, hy, rfl⟩, _⟩ := hb
  exact key_inj (hp x hx) (hp y hy) hab

theorem rankAll_spec (t : ObjType) (l : List Res) (hp : ∀ x ∈ l, Proper x.value)
    (hs : l.Pairwise fun a b => key t a.value ≤ key t b.value) :
    rankAll l = l.map fun x => { x with rank := denseRank t (l.map Res.value) x.value } := by
  cases l with
  | nil => rfl
  | cons q xs =>
    have h := rankLoop_spec t xs 1 q hp hs
    rw [rankAll, h, List.map_cons]
    have h0 : below t (q :: xs) (key t q.value) = 0 := by
      unfold below
      rw [Finset.card_eq_zero, Finset.filter_eq_empty_iff]
      intro k hk
      simp only [List.mem_toFinset, List.mem_map] at hk
      obtain ⟨y, hy, rfl⟩ := hk
      rcases List.mem_cons.1 hy with rfl | hy
      · exact lt_irrefl _
      · exact not_lt.2 ((List.pairwise_cons.1 hs).1 y hy)
    congr 1
    · rw [← below_dense hp (hp q (by simp)), h0]
    · refine List.map_congr_left fun y hy => ?_
      rw [← below_dense hp (hp y (by simp [hy]))]
      congr 1
      omega

theorem denseRank_perm {t : ObjType} {l l' : List D} (h : l.Perm l') (v : D) :
    denseRank t l v = denseRank t l' v := by
  unfold denseRank
  congr 1
  exact ((h.filter _).dedup).length_eq

/-- A line in the order of the positions. -/
def lineOf (vs : List D) : List Res := vs.zipIdx.map fun p => ⟨p.1, p.2, 0⟩

theorem lineOf_values (vs : List D) : (lineOf vs).map Res.value = vs := by
  simp [lineOf, Function.comp_def]

theorem lineOf_proper {vs : List D} (h : ∀ v ∈ vs, Proper v) : ∀ x ∈ lineOf vs, Proper x.value := by
  intro x hx
  have : x.value ∈ (lineOf vs).map Res.value := List.mem_map.2 ⟨x, hx, rfl⟩
  rw [lineOf_values] at this
  exact h _ this

theorem lineOf_positions (vs : List D) : (lineOf vs).map Res.position = List.range vs.length := by
  simp [lineOf, Function.comp_def, List.range_eq_range']

/-- The line with its ranks. -/
def ranked (t : ObjType) (vs : List D) : List Res :=
  (lineOf vs).map fun x => { x with rank := denseRank t vs x.value }

theorem ranked_ranks (t : ObjType) (vs : List D) :
    (ranked t vs).map Res.rank = vs.map (denseRank t vs) := by
  have : (ranked t vs).map Res.rank = ((lineOf vs).map Res.value).map (denseRank t vs) := by
    simp [ranked, Function.comp_def]
  rw [this, lineOf_values]

theorem ranked_positions (t : ObjType) (vs : List D) :
    (ranked t vs).map Res.position = List.range vs.length := by
  rw [← lineOf_positions vs]
  simp [ranked, Function.comp_def]

/-- A sorted line, ranked, is the line with its ranks in another order. -/
theorem rankAll_perm {t : ObjType} {vs : List D} (hv : ∀ v ∈ vs, Proper v) {l : List Res}
    (hl : l.Perm (lineOf vs)) (hs : l.Pairwise fun a b => key t a.value ≤ key t b.value) :
    (rankAll l).Perm (ranked t vs) := by
  rw [rankAll_spec t l (fun x hx => lineOf_proper hv x (hl.mem_iff.1 hx)) hs]
  have hvals : (l.map Res.value).Perm vs := by
    have := hl.map Res.value
    rwa [lineOf_values] at this
  have : (fun x : Res => { x with rank := denseRank t (l.map Res.value) x.value }) =
      fun x => { x with rank := denseRank t vs x.value } := by
    funext x
    rw [denseRank_perm hvals]
  rw [this]
  exact hl.map _

theorem sorted_positions {srt : Sorts} (hsrt : SortsOk srt) {t : ObjType} {vs : List D}
    {l : List Res} (hl : l.Perm (ranked t vs)) :
    (srt.position l).map Res.rank = vs.map (denseRank t vs) := by
  have hp : (srt.position l).Perm (ranked t vs) := (hsrt.position_perm l).trans hl
  have hlt : (ranked t vs).Pairwise fun a b => a.position < b.position := by
    have := List.pairwise_lt_range (n := vs.length)
    rw [← ranked_positions t vs, List.pairwise_map] at this
    exact this
  have hnd : ((ranked t vs).map Res.position).Nodup := by
    rw [ranked_positions]; exact List.nodup_range
  have : srt.position l = ranked t vs := by
    refine List.Perm.eq_of_pairwise (le := fun a b : Res => a.position ≤ b.position) ?_
      (hsrt.position_sorted l) (hlt.imp fun h => Nat.le_of_lt h) hp
    intro a b ha hb h1 h2
    exact List.inj_on_of_nodup_map hnd (hp.mem_iff.1 ha) hb (Nat.le_antisymm h1 h2)
  rw [this, ranked_ranks]

/-! ## The sums -/

/-- The ranks at a position. -/
def rankAt (l : List Res) (j : Nat) : Nat :=
  ((l.filter fun r => r.position == j).map Res.rank).sum

theorem addRanks_get : ∀ (l : List Res) (total : List Nat) (j : Nat),
    (addRanks total l)[j]? = total[j]?.map (· + rankAt l j)
  | [], total, j => by simp [addRanks, rankAt]
  | r :: l, total, j => by
    have ih := addRanks_get l (total.modify r.position (· + r.rank)) j
    simp only [addRanks, List.foldl_cons] at ih ⊢
    rw [ih, List.getElem?_modify]
    by_cases h : r.position = j
    · simp only [h, if_true, rankAt, List.filter_cons, beq_self_eq_true, List.map_cons,
        List.sum_cons]
      cases total[j]? <;> simp [Nat.add_assoc]
    · simp [h, rankAt]

theorem rankAt_perm {l l' : List Res} (h : l.Perm l') (j : Nat) : rankAt l j = rankAt l' j :=
  ((h.filter _).map _).sum_eq

theorem rankAt_zipIdx (f : D → Nat) : ∀ (vs : List D) (k j : Nat),
    rankAt ((vs.zipIdx k).map fun p => ⟨p.1, p.2, f p.1⟩) j =
      if k ≤ j then ((vs.map f)[j - k]?).getD 0 else 0
  | [], k, j => by simp [rankAt]
  | v :: vs, k, j => by
    have ih := rankAt_zipIdx f vs (k + 1) j
    simp only [rankAt, List.zipIdx_cons, List.map_cons, List.filter_cons] at ih ⊢
    by_cases h : k = j
    · subst h
      simp only [beq_self_eq_true, if_true, List.map_cons, List.sum_cons, ih]
      simp
    · have hb : (k == j) = false := by simpa using h
      simp only [hb, Bool.false_eq_true, if_false, ih]
      by_cases hk : k + 1 ≤ j
      · rw [if_pos hk, if_pos (by omega), show j - k = (j - (k + 1)) + 1 by omega]
        simp
      · rw [if_neg hk, if_neg (by omega)]

theorem rankAt_ranked (t : ObjType) (vs : List D) (j : Nat) :
    rankAt (ranked t vs) j = (vs.map (denseRank t vs)).getD j 0 := by
  have := rankAt_zipIdx (denseRank t vs) vs 0 j
  simp only [Nat.zero_le, if_true, Nat.sub_zero] at this
  rw [List.getD_eq_getElem?_getD, ← this]
  simp [ranked, lineOf, Function.comp_def]

end Bx.Benchmark
