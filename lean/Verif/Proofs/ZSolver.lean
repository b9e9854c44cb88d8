import Verif.Model.ZSolver
import Verif.Proofs.BranchBound
import Verif.Proofs.Itm2

/-! Lemmas on the solver with integer coefficients. -/

namespace Bx.ZSolver

open Merge SolverCtor Spec Exhaustive Itm

/-! ## The constructor -/

theorem prepareAll_keeps {ms : List Merged} : ∀ {ex ex' : Ex} {i k : Nat} {es : List FunElem}
    {bmin bmax : Int}, prepareAll ex i ms = .ok ex' → Ready ex k es bmin bmax →
    Ready ex' k es bmin bmax := by
  induction ms with
  | nil => intro ex ex' i k es a b h hr; rw [← Except.ok.inj h]; exact hr
  | cons m ms ih =>
    intro ex ex' i k es a b h hr
    unfold prepareAll at h
    obtain ⟨_, _, h⟩ := bind_eq_ok.mp h
    obtain ⟨e, he, h⟩ := bind_eq_ok.mp h
    obtain ⟨_, _, h⟩ := bind_eq_ok.mp h
    refine ih h ?_
    unfold prepare at he
    split at he
    · exact build_keeps he hr
    · exact build_keeps he hr
    · rw [← Except.ok.inj he]; exact hr

theorem prepare_entries {ex ex' : Ex} {i : Nat} {m : Merged} (h : prepare ex i m = .ok ex') :
    ∀ e ∈ ex'.entries, e ∈ ex.entries ∨ e.k = i := by
  unfold prepare at h
  split at h
  · exact build_entries h
  · exact build_entries h
  · rw [← Except.ok.inj h]; exact fun e he => Or.inl he

theorem prepareAll_spec {ms : List Merged} : ∀ {ex ex' : Ex} {i : Nat},
    prepareAll ex i ms = .ok ex' → (∀ e ∈ ex.entries, e.k < i) →
    ∀ (j : Nat) (m : Merged), ms[j]? = some m →
      (∀ e ∈ m.elems, e.factor ≠ 0) ∧ (rowBound m).min ≤ (rowBound m).max ∧
      (kindOf m = .exhaustive ∨ kindOf m = .unconstrainedExhaustive →
        Ready ex' (i + j) m.elems (rowBound m).min (rowBound m).max) := by
  induction ms with
  | nil => intro ex ex' i _ _ j m hj; simp at hj
  | cons m0 ms ih =>
    intro ex ex' i h hd j m hj
    unfold prepareAll at h
    obtain ⟨_, h1, h⟩ := bind_eq_ok.mp h
    obtain ⟨e, he, h⟩ := bind_eq_ok.mp h
    obtain ⟨_, h2, h3⟩ := bind_eq_ok.mp h
    clear h
    cases j with
    | zero =>
      simp only [List.getElem?_cons_zero, Option.some.injEq] at hj
      subst hj
      refine ⟨by simpa using check_eq_ok.mp h1, by simpa using check_eq_ok.mp h2, fun hk => ?_⟩
      refine prepareAll_keeps h3 ?_
      have hne : ∀ e ∈ ex.entries, e.k ≠ i := fun e he => by have := hd e he; omega
      unfold prepare at he
      rcases hk with hk | hk <;> rw [hk] at he <;> exact build_ready he hne
    | succ j =>
      rw [List.getElem?_cons_succ] at hj
      have := ih h3 (fun x hx => by
        rcases prepare_entries he x hx with hx | hx
        · have := hd x hx; omega
        · omega) j m hj
      rwa [show i + 1 + j = i + (j + 1) by omega] at this

theorem rowBound_eq {m : Merged} (hf : ∀ e ∈ m.elems, e.factor ≠ 0)
    (hb : (rowBound m).min ≤ (rowBound m).max) : ctor .inequalitiesZ m = .ok (rowBound m) := by
  show inequalitiesZ m = _
  unfold inequalitiesZ
  rw [check_of (by simpa using hf)]
  simp only [ok_bind]
  rw [check_of (by unfold rowBound at hb; simpa using hb)]
  rfl

theorem makeZ_facts {csts : List Merged} {n : Nat} {z : ZSlv} (h : makeZ csts n = .ok z) :
    z.slv.kind = .inequalitiesZ ∧ 0 < z.slv.cap ∧
    (∀ c ∈ csts, c.elems.length ≤ z.slv.cap) ∧
    (∀ (k : Nat) (c : Merged), csts[k]? = some c →
      rowOf z.slv k = .ok c.elems ∧ boundOf z.slv k = .ok (rowBound c) ∧
      kindAt z k = .ok (kindOf c) ∧ ctor .inequalitiesZ c = .ok (rowBound c) ∧
      (∀ e ∈ c.elems, e.factor ≠ 0) ∧ (rowBound c).min ≤ (rowBound c).max ∧
      (kindOf c = .exhaustive ∨ kindOf c = .unconstrainedExhaustive →
        Ready z.ex k c.elems (rowBound c).min (rowBound c).max)) := by
  unfold makeZ at h
  obtain ⟨mat, hm, h⟩ := bind_eq_ok.mp h
  obtain ⟨cap, hcap, h⟩ := bind_eq_ok.mp h
  obtain ⟨ex, hex, h⟩ := bind_eq_ok.mp h
  have := Except.ok.inj h
  subst this
  have hge : ∀ c ∈ csts, c.elems.length ≤ cap := by
    intro c hc
    cases csts with
    | nil => simp at hc
    | cons c0 cs =>
      have hcap : cs.foldl (fun m c => max m c.elems.length) c0.elems.length = cap :=
        Except.ok.inj hcap
      obtain ⟨h3, h4⟩ := foldl_max_ge cs c0.elems.length
      rw [hcap] at h3 h4
      rcases List.mem_cons.mp hc with rfl | hc
      · exact h3
      · exact h4 c hc
  refine ⟨rfl, ?_, hge, ?_⟩
  · by_contra h0
    have h0 : cap = 0 := Nat.eq_zero_of_not_pos h0
    have hall : ∀ c ∈ csts, c.elems = [] := by
      intro c hc
      have := hge c hc
      exact List.length_eq_zero_iff.mp (by omega)
    rw [Sparse.C17_empty_matrix_is_undefined csts n hall] at hm
    simp at hm
  · intro k c hk
    obtain ⟨h1, h2, h3⟩ := prepareAll_spec hex (by simp) k c hk
    rw [Nat.zero_add] at h3
    exact ⟨by simp [rowOf, hk], by simp [boundOf, hk], by simp [kindAt, hk], rowBound_eq h1 h2,
      h1, h2, h3⟩

/-! ## Selection -/

/-- Sum of the factors of the first elements. -/
def psum (rc : List Rc) (j : Nat) : Int := ((rc.take j).map Rc.f).sum

theorem psum_succ {rc : List Rc} {j : Nat} {c : Rc} (h : rc[j]? = some c) :
    psum rc (j + 1) = psum rc j + c.f := by
  unfold psum
  rw [List.take_add_one, h]
  simp

/-- What is known of a selected index. -/
def Good (rc : List Rc) (bmin bmax : Int) (best : Option Int) : Prop :=
  ∀ i, best = some i → -1 ≤ i ∧ i < rc.length ∧
    bmin ≤ psum rc (i + 1).toNat ∧ psum rc (i + 1).toNat ≤ bmax

theorem selectLoop_spec {t : ObjType} {cap : Nat} {stale : Rc} {rc : List Rc} {bmin bmax : Int} :
    ∀ (n j : Nat) (best : Option Int), n + j = rc.length + 1 → Good rc bmin bmax best →
    (∀ i, i < j → bmin ≤ psum rc i → psum rc i ≤ bmax → best ≠ none) →
    (∃ r, selectLoop t (cell cap stale rc) bmin bmax n j (psum rc j) best = .ok r ∧
      Good rc bmin bmax r ∧
      ∀ i, i ≤ rc.length → bmin ≤ psum rc i → psum rc i ≤ bmax → r ≠ none) ∨
    (selectLoop t (cell cap stale rc) bmin bmax n j (psum rc j) best = .error (.ub "R[i]") ∧
      cap ≤ rc.length)
  | 0, j, best, hn, hg, hb => Or.inl ⟨best, rfl, hg, fun i hi => hb i (by omega)⟩
  | n + 1, j, best, hn, hg, hb => by
    unfold selectLoop
    simp only
    generalize hbe : (if bmin ≤ psum rc j ∧ psum rc j ≤ bmax then some ((j : Int) - 1) else best) =
      best'
    have hg' : Good rc bmin bmax best' := by
      rw [← hbe]
      split
      · rename_i hc
        intro i hi
        have : i = (j : Int) - 1 := (Option.some.inj hi).symm
        subst this
        rw [show ((j : Int) - 1 + 1).toNat = j by omega]
        exact ⟨by omega, by omega, hc⟩
      · exact hg
    have hb' : ∀ i, i < j + 1 → bmin ≤ psum rc i → psum rc i ≤ bmax → best' ≠ none := by
      intro i hi h1 h2
      rw [← hbe]
      by_cases hij : i = j
      · subst hij
        rw [if_pos ⟨h1, h2⟩]; simp
      · split
        · simp
        · exact hb i (by omega) h1 h2
    have hsome : best'.isSome = true → ∀ i, i ≤ rc.length → bmin ≤ psum rc i → psum rc i ≤ bmax →
        best' ≠ none := by
      intro hs _ _ _ _ he
      rw [he] at hs; simp at hs
    by_cases hj : j < rc.length
    · have hget : rc[j]? = some rc[j] := List.getElem?_eq_getElem hj
      have hcell : cell cap stale rc j = .ok rc[j] := by unfold cell; rw [hget]
      rw [hcell]
      simp only [ok_bind]
      split
      · rename_i hc
        rw [Bool.and_eq_true] at hc
        exact Or.inl ⟨best', rfl, hg', hsome hc.1⟩
      · rw [← psum_succ hget]
        exact selectLoop_spec n (j + 1) best' (by omega) hg' hb'
    · have hget : rc[j]? = none := List.getElem?_eq_none (by omega)
      have hn0 : n = 0 := by omega
      by_cases hcap : j < cap
      · have hcell : cell cap stale rc j = .ok stale := by unfold cell; rw [hget]; simp [hcap]
        rw [hcell]
        simp only [ok_bind]
        left
        split
        · exact ⟨best', rfl, hg', fun i hi => hb' i (by omega)⟩
        · subst hn0
          exact ⟨best', rfl, hg', fun i hi => hb' i (by omega)⟩
      · have hcell : cell cap stale rc j = .error (.ub "R[i]") := by
          unfold cell; rw [hget]; simp [hcap]
        rw [hcell]
        exact Or.inr ⟨rfl, by omega⟩

theorem selectZ_spec (t : ObjType) (cap : Nat) (stale : Rc) (rc : List Rc) (b : Bound) :
    (∃ r, selectZ t cap stale rc b = .ok r ∧ Good rc b.min b.max r ∧
      ∀ i, i ≤ rc.length → b.min ≤ psum rc i → psum rc i ≤ b.max → r ≠ none) ∨
    (selectZ t cap stale rc b = .error (.ub "R[i]") ∧ cap ≤ rc.length) := by
  have := selectLoop_spec (t := t) (cap := cap) (stale := stale) (rc := rc) (bmin := b.min)
    (bmax := b.max) (rc.length + 1) 0 none (by omega) (by intro i hi; simp at hi)
    (by intro i hi; omega)
  unfold selectZ
  rwa [show psum rc 0 = 0 from rfl] at this

theorem weight_append (y : Nat → Bool) (a b : List Rc) :
    weight y (a ++ b) = weight y a + weight y b := by
  unfold weight; simp

theorem weight_chosen {rc : List Rc} (hid : (rc.map Rc.id).Nodup) (i : Int) :
    weight (chosen (rc, i)) rc = psum rc (i + 1).toNat := by
  have hsplit := List.take_append_drop (i + 1).toNat rc
  have hnd := hid
  rw [← hsplit, List.map_append] at hnd
  have hdis := (List.nodup_append.mp hnd).2.2
  conv_lhs => rw [show weight (chosen (rc, i)) rc = weight (chosen (rc, i))
    (rc.take (i + 1).toNat ++ rc.drop (i + 1).toNat) by rw [hsplit]]
  rw [weight_append]
  have h1 : weight (chosen (rc, i)) (rc.take (i + 1).toNat) = psum rc (i + 1).toNat := by
    unfold weight psum
    congr 1
    apply List.map_congr_left
    intro c hc
    have : chosen (rc, i) c.id = true := by
      unfold chosen
      rw [decide_eq_true_eq]
      exact List.mem_map.mpr ⟨c, hc, rfl⟩
    rw [this]; rfl
  have h2 : weight (chosen (rc, i)) (rc.drop (i + 1).toNat) = 0 := by
    unfold weight
    have : (rc.drop (i + 1).toNat).map (fun c => if chosen (rc, i) c.id = true then c.f else 0) =
        (rc.drop (i + 1).toNat).map fun _ => 0 := by
      apply List.map_congr_left
      intro c hc
      have : chosen (rc, i) c.id = false := by
        unfold chosen
        rw [decide_eq_false_iff_not]
        intro hm
        exact hdis c.id hm c.id (List.mem_map.mpr ⟨c, hc, rfl⟩) rfl
      rw [this]; rfl
    rw [this]; simp
  omega

/-! ## Affectation -/

theorem setAll_spec {row : List FunElem} (hnd : (row.map FunElem.var).Nodup) (v : Bool) :
    ∀ (ids : List Nat) (x : Assign), (∀ i ∈ ids, i < row.length) →
    ∃ x', setAll row v x ids = .ok x' ∧
      (∀ j, (∀ (i : Nat) (e : FunElem), i ∈ ids → row[i]? = some e → e.var ≠ j) → x' j = x j) ∧
      (∀ (i : Nat) (e : FunElem), i ∈ ids → row[i]? = some e → x' e.var = v)
  | [], x, _ => ⟨x, rfl, fun _ _ => rfl, by simp⟩
  | i :: is, x, h => by
    have hi : i < row.length := h i (by simp)
    have hr : row[i]? = some row[i] := List.getElem?_eq_getElem hi
    obtain ⟨x', h1, h2, h3⟩ := setAll_spec hnd v is (write x row[i].var v)
      (fun j hj => h j (by simp [hj]))
    refine ⟨x', ?_, ?_, ?_⟩
    · simp only [setAll, hr, h1]
    · intro j hj
      rw [h2 j (fun i' e hi' he => hj i' e (by simp [hi']) he)]
      have : j ≠ row[i].var := fun he => hj i row[i] (by simp) hr he.symm
      simp [write, this]
    · intro i' e hi' he
      by_cases hm : i' ∈ is
      · exact h3 i' e hm he
      · have : i' = i := by
          rcases List.mem_cons.mp hi' with h | h
          · exact h
          · exact absurd h hm
        subst this
        have he' : e = row[i'] := by rw [hr] at he; exact (Option.some.inj he).symm
        subst he'
        rw [h2]
        · simp [write]
        · intro i2 e2 hi2 he2 heq
          have hlt : i2 < row.length := h i2 (by simp [hi2])
          have e2' : e2 = row[i2] := by
            rw [List.getElem?_eq_getElem hlt] at he2; exact (Option.some.inj he2).symm
          subst e2'
          have hij : i2 = i' := by
            have := List.nodup_iff_injective_getElem.mp hnd
            have h4 := @this ⟨i2, by simpa using hlt⟩ ⟨i', by simpa using hi⟩ (by simpa using heq)
            exact congrArg Fin.val h4
          exact hm (hij ▸ hi2)

/-- Positions of the row as a Prop on the ids. -/
theorem pos_inj {row : List FunElem} (hnd : (row.map FunElem.var).Nodup) {i j : Nat}
    {e f : FunElem} (hi : row[i]? = some e) (hj : row[j]? = some f) (h : e.var = f.var) : i = j := by
  obtain ⟨h1, rfl⟩ := List.getElem?_eq_some_iff.mp hi
  obtain ⟨h2, rfl⟩ := List.getElem?_eq_some_iff.mp hj
  have := List.nodup_iff_injective_getElem.mp hnd
  have h4 := @this ⟨i, by simpa using h1⟩ ⟨j, by simpa using h2⟩ (by simpa using h)
  exact congrArg Fin.val h4

theorem localAffectX_spec {s : Slv} {row : List FunElem} (hnd : (row.map FunElem.var).Nodup)
    {ids : List Nat} (hp : ids.Perm (List.range row.length)) (hcap : 0 < s.cap)
    (hlen : row.length ≤ s.cap) {sel : Int} (hsel : sel < s.cap) (x : Assign) :
    ∃ x', localAffectX s row ids sel x = .ok x' ∧
      (∀ j, (∀ e ∈ row, e.var ≠ j) → x' j = x j) ∧
      ∀ (i : Nat) (e : FunElem), row[i]? = some e →
        x' e.var = decide (i ∈ ids.take (sel + 1).toNat) := by
  have hlt : ∀ i ∈ ids, i < row.length := fun i hi => List.mem_range.mp (hp.mem_iff.mp hi)
  have hmem : ∀ (i : Nat) (e : FunElem), row[i]? = some e → i ∈ ids := fun i e he =>
    hp.mem_iff.mpr (List.mem_range.mpr (List.getElem?_eq_some_iff.mp he).1)
  have hids : ids.length = row.length := by rw [hp.length_eq]; simp
  have hidn : ids.Nodup := hp.nodup_iff.mpr List.nodup_range
  have frame : ∀ (l : List Nat) (x x' : Assign),
      (∀ j, (∀ (i : Nat) (e : FunElem), i ∈ l → row[i]? = some e → e.var ≠ j) → x' j = x j) →
      ∀ j, (∀ e ∈ row, e.var ≠ j) → x' j = x j := fun l x x' h j hj =>
    h j fun i e _ he => hj e (List.mem_of_getElem? he)
  unfold localAffectX
  by_cases h1 : sel < 0
  · rw [if_pos h1, readR_ok (by omega) (by omega)]
    simp only [ok_bind]
    obtain ⟨x', g1, g2, g3⟩ := setAll_spec hnd false ids x hlt
    refine ⟨x', g1, frame ids x x' g2, fun i e he => ?_⟩
    rw [g3 i e (hmem i e he) he, show (sel + 1).toNat = 0 by omega]
    simp
  · rw [if_neg h1]
    by_cases h2 : sel + 1 ≥ ids.length
    · rw [if_pos h2, readR_ok (by omega) hsel]
      simp only [ok_bind]
      obtain ⟨x', g1, g2, g3⟩ := setAll_spec hnd true ids x hlt
      refine ⟨x', g1, frame ids x x' g2, fun i e he => ?_⟩
      rw [g3 i e (hmem i e he) he, List.take_of_length_le (by omega)]
      simp [hmem i e he]
    · rw [if_neg h2, readR_ok (by omega) hsel]
      simp only [ok_bind]
      rw [readR_ok (by omega) (by omega)]
      simp only [ok_bind]
      obtain ⟨x1, g1, g2, g3⟩ := setAll_spec hnd true (ids.take (sel + 1).toNat) x
        (fun i hi => hlt i (List.mem_of_mem_take hi))
      obtain ⟨x2, k1, k2, k3⟩ := setAll_spec hnd false (ids.drop (sel + 1).toNat) x1
        (fun i hi => hlt i (List.mem_of_mem_drop hi))
      rw [g1]
      simp only [ok_bind]
      refine ⟨x2, k1, fun j hj => ?_, fun i e he => ?_⟩
      · rw [frame _ _ _ k2 j hj, frame _ _ _ g2 j hj]
      · have hsplit := List.take_append_drop (sel + 1).toNat ids
        have hdis := (List.nodup_append.mp (by rw [hsplit]; exact hidn :
          (ids.take (sel + 1).toNat ++ ids.drop (sel + 1).toNat).Nodup)).2.2
        have hm := hmem i e he
        rw [← hsplit, List.mem_append] at hm
        rcases hm with hm | hm
        · rw [decide_eq_true hm, k2 _ fun i' e' hi' he' heq => ?_]
          · exact g3 i e hm he
          · have := pos_inj hnd he' he heq
            subst this
            exact hdis i' hm i' hi' rfl
        · rw [k3 i e hm he]
          symm
          rw [decide_eq_false_iff_not]
          intro hm'
          exact hdis i hm' i hm rfl

theorem localAffectX_ub {s : Slv} {row : List FunElem} {ids : List Nat}
    (hlen : row.length ≤ s.cap) (hp : ids.Perm (List.range row.length)) {sel : Int}
    (hcap : 0 < s.cap) (hsel : (s.cap : Int) ≤ sel) (x : Assign) :
    localAffectX s row ids sel x = .error (.ub "R[i]") := by
  have hids : ids.length = row.length := by rw [hp.length_eq]; simp
  unfold localAffectX
  rw [if_neg (by omega), if_pos (by omega)]
  unfold readR
  rw [if_neg (by omega)]
  rfl

/-! ## The row -/

theorem reduced_f (cost : Nat → Rat) (row : List FunElem) :
    (reduced cost row).map Rc.f = row.map FunElem.factor := by
  unfold reduced
  rw [List.map_map]
  conv_rhs => rw [← List.zipIdx_map_fst 0 row]
  rw [List.map_map]
  rfl

theorem reduced_id (cost : Nat → Rat) (row : List FunElem) :
    (reduced cost row).map Rc.id = List.range row.length := by
  unfold reduced
  rw [List.map_map]
  have : (Rc.id ∘ fun p : FunElem × Nat => (⟨cost p.2, p.2, p.1.factor⟩ : Rc)) = Prod.snd := by
    funext p; rfl
  rw [this, List.zipIdx_map_snd, List.range_eq_range']

theorem reduced_length (cost : Nat → Rat) (row : List FunElem) :
    (reduced cost row).length = row.length := by
  unfold reduced; simp

theorem reduced_weight {cost : Nat → Rat} {row : List FunElem} {x : Assign} {y : Nat → Bool}
    (h : ∀ (i : Nat) (e : FunElem), row[i]? = some e → x e.var = y i) :
    weight y (reduced cost row) = lhs x row := by
  unfold weight reduced lhs
  rw [List.map_map]
  conv_rhs => rw [← List.zipIdx_map_fst 0 row]
  rw [List.map_map]
  congr 1
  apply List.map_congr_left
  rintro ⟨e, i⟩ hp
  have he : row[i]? = some e := by simpa using List.mem_zipIdx_iff_getElem?.mp hp
  simp only [Function.comp_apply]
  rw [h i e he]

/-- From a selection within the bounds to the updated assignment. -/
theorem affect_of_choose {csts : List Merged} {n : Nat} {z : ZSlv} (hz : makeZ csts n = .ok z)
    {k : Nat} {c : Merged} (hk : csts[k]? = some c) (hnd : (c.elems.map FunElem.var).Nodup)
    {cost : Nat → Rat} {out : List Rc × Int} (hp : out.1.Perm (reduced cost c.elems))
    (hsel : out.2 ≤ c.elems.length)
    (hw : (rowBound c).min ≤ weight (chosen out) (reduced cost c.elems) ∧
      weight (chosen out) (reduced cost c.elems) ≤ (rowBound c).max) (x : Assign) :
    (∃ x', localAffect z.slv k c.elems (out.1.map Rc.id) out.2 x = .ok x' ∧ satM x' c ∧
      ∀ (i : Nat) (e : FunElem), c.elems[i]? = some e → x' e.var = chosen out i) ∨
    (localAffect z.slv k c.elems (out.1.map Rc.id) out.2 x = .error (.ub "R[i]") ∧
      z.slv.cap ≤ c.elems.length) := by
  obtain ⟨hkind, hcap, hge, hrows⟩ := makeZ_facts hz
  obtain ⟨hr, hb, _, hct, _⟩ := hrows k c hk
  have hlen := hge c (List.mem_of_getElem? hk)
  have hids : (out.1.map Rc.id).Perm (List.range c.elems.length) := by
    rw [← reduced_id cost c.elems]; exact hp.map _
  unfold localAffect
  by_cases hs : out.2 < z.slv.cap
  · left
    obtain ⟨x', h1, h2, h3⟩ := localAffectX_spec hnd hids hcap hlen hs x
    have hx : ∀ (i : Nat) (e : FunElem), c.elems[i]? = some e → x' e.var = chosen out i := by
      intro i e he
      rw [h3 i e he, ← List.map_take]; rfl
    have hl := reduced_weight (cost := cost) hx
    rw [hl] at hw
    refine ⟨x', ?_, (ctor_exact hct x').mp hw, hx⟩
    rw [h1]
    simp only [ok_bind]
    have : isValidConstraint z.slv k x' = .ok true := by
      unfold isValidConstraint
      simp only [hr, hb, ok_bind, hkind, rowValue_lhs hct x']
      simp [hw]
    rw [this]
    rfl
  · right
    rw [localAffectX_ub hlen hids hcap (by omega) x]
    exact ⟨rfl, by omega⟩

/-- A row with a factor other than 1 and -1 is not empty; a branch-and-bound row has
ten elements or more. -/
theorem baseKind_facts (es : List FunElem) :
    (baseKind es = .branchAndBound → 10 ≤ es.length) ∧ (baseKind es = .exhaustive → es ≠ []) ∧
    baseKind es ≠ .unconstrainedBranchAndBound ∧ baseKind es ≠ .unconstrainedExhaustive := by
  unfold baseKind
  refine ⟨?_, ?_, ?_, ?_⟩
  · split
    · split <;> intro h
      · simp at h
      · omega
    · intro h; simp at h
  · split
    · rename_i ha
      intro _ he
      rw [he] at ha; simp at ha
    · intro h; simp at h
  · split
    · split <;> simp
    · simp
  · split
    · split <;> simp
    · simp

theorem kindOf_facts (m : Merged) :
    (kindOf m = .branchAndBound ∨ kindOf m = .unconstrainedBranchAndBound → 10 ≤ m.elems.length) ∧
    (kindOf m = .exhaustive ∨ kindOf m = .unconstrainedExhaustive → m.elems ≠ []) := by
  obtain ⟨h1, h2, h3, h4⟩ := baseKind_facts m.elems
  unfold kindOf
  cases hb : baseKind m.elems <;> simp only [hb] at h1 h2 h3 h4 ⊢ <;> split <;>
    (try split) <;> simp_all

/-- Choice of the elements for each kind of row. -/
theorem choose_spec {t : ObjType} {csts : List Merged} {n : Nat} {z : ZSlv}
    (hz : makeZ csts n = .ok z) {k : Nat} {c : Merged} (hk : csts[k]? = some c)
    (hsat : ∃ y, satM y c) (hnd : (c.elems.map FunElem.var).Nodup) {o : ZRow} (ho : o.Ok t)
    (hkind : kindOf c = .branchAndBound ∨ kindOf c = .unconstrainedBranchAndBound ∨
      kindOf c = .exhaustive ∨
      ∃ i ≤ c.elems.length, (rowBound c).min ≤ psum (o.sort (reduced o.cost c.elems)) i ∧
        psum (o.sort (reduced o.cost c.elems)) i ≤ (rowBound c).max) :
    (∃ out : List Rc × Int, choose t z o k (kindOf c) (rowBound c) (reduced o.cost c.elems) = .ok out ∧
      out.1.Perm (reduced o.cost c.elems) ∧ -1 ≤ out.2 ∧ out.2 ≤ c.elems.length ∧
      (rowBound c).min ≤ weight (chosen out) (reduced o.cost c.elems) ∧
      weight (chosen out) (reduced o.cost c.elems) ≤ (rowBound c).max) ∨
    (choose t z o k (kindOf c) (rowBound c) (reduced o.cost c.elems) = .error (.ub "R[i]") ∧
      z.slv.cap ≤ c.elems.length) := by
  obtain ⟨_, hcap, hge, hrows⟩ := makeZ_facts hz
  obtain ⟨hr, hb, _, hct, hf, hbb, hready⟩ := hrows k c hk
  obtain ⟨ho1, ho2, ho3⟩ := ho
  obtain ⟨k1, k2⟩ := kindOf_facts c
  generalize hrc : reduced o.cost c.elems = rc at *
  have hlen : rc.length = c.elems.length := by rw [← hrc]; exact reduced_length _ _
  have hid : (rc.map Rc.id).Nodup := by rw [← hrc, reduced_id]; exact List.nodup_range
  have hff : rc.map Rc.f = c.elems.map FunElem.factor := by rw [← hrc]; exact reduced_f _ _
  have hsp := ho1 rc
  have hslen : (o.sort rc).length = c.elems.length := by rw [hsp.length_eq, hlen]
  have hsid : ((o.sort rc).map Rc.id).Nodup := ((hsp.map Rc.id).nodup_iff).mpr hid
  have hrcf : ∀ a ∈ rc, a.f ≠ 0 := by
    intro a ha
    have : a.f ∈ c.elems.map FunElem.factor := by rw [← hff]; exact List.mem_map.mpr ⟨a, ha, rfl⟩
    obtain ⟨e, he, he'⟩ := List.mem_map.mp this
    rw [← he']; exact hf e he
  have hsatw : ∃ y, (rowBound c).min ≤ weight y (o.sort rc) ∧ weight y (o.sort rc) ≤ (rowBound c).max := by
    obtain ⟨y, hy⟩ := hsat
    rw [← ctor_exact hct y] at hy
    refine ⟨fun i => y ((c.elems[i]?).getD ⟨0, 0⟩).var, ?_⟩
    rw [weight_perm hsp, ← hrc, reduced_weight (x := y)]
    · exact hy
    · intro i e he; simp [he]
  have bbc : 10 ≤ c.elems.length →
      ∃ out : List Rc × Int, BranchBound.solve o.rnd t o.sort1 o.sort2 (o.sort rc) (rowBound c).min (rowBound c).max =
        .ok out ∧ out.1.Perm rc ∧ -1 ≤ out.2 ∧ out.2 ≤ c.elems.length ∧
        (rowBound c).min ≤ weight (chosen out) rc ∧ weight (chosen out) rc ≤ (rowBound c).max := by
    intro h10
    obtain ⟨out, g1, g2, g3, g4, _, g6, _⟩ := BranchBound.solve_spec (rnd := o.rnd) (t := t) ho2 ho3
      (rc := o.sort rc) (by omega) (fun a ha => hrcf a (hsp.mem_iff.mp ha)) hsid hbb
    have g6 := g6 hsatw
    rw [weight_perm hsp] at g6
    exact ⟨out, g1, g2.trans hsp, g3, by omega, g6⟩
  have selc : (∃ i ≤ c.elems.length, (rowBound c).min ≤ psum (o.sort rc) i ∧
        psum (o.sort rc) i ≤ (rowBound c).max) ∨ kindOf c = .unconstrainedBranchAndBound →
      ∀ other : Outcome (List Rc × Int), (kindOf c = .unconstrainedBranchAndBound →
        other = BranchBound.solve o.rnd t o.sort1 o.sort2 (o.sort rc) (rowBound c).min (rowBound c).max) →
      (∃ out : List Rc × Int, (selectZ t z.slv.cap o.stale (o.sort rc) (rowBound c) >>= fun sel =>
        orElse sel (o.sort rc) other) = .ok out ∧
        out.1.Perm rc ∧ -1 ≤ out.2 ∧ out.2 ≤ c.elems.length ∧
        (rowBound c).min ≤ weight (chosen out) rc ∧ weight (chosen out) rc ≤ (rowBound c).max) ∨
      ((selectZ t z.slv.cap o.stale (o.sort rc) (rowBound c) >>= fun sel =>
        orElse sel (o.sort rc) other) = .error (.ub "R[i]") ∧ z.slv.cap ≤ c.elems.length) := by
    intro hor other hother
    rcases selectZ_spec t z.slv.cap o.stale (o.sort rc) (rowBound c) with ⟨r, h1, h2, h3⟩ | ⟨h1, h2⟩
    · rw [h1]
      simp only [ok_bind]
      cases r with
      | some i =>
        obtain ⟨g1, g2, g3⟩ := h2 i rfl
        left
        refine ⟨(o.sort rc, i), rfl, hsp, g1, by show i ≤ _; omega, ?_⟩
        rw [← weight_perm hsp, weight_chosen hsid]
        exact g3
      | none =>
        rcases hor with ⟨i, hi, hb1, hb2⟩ | hor
        · exact absurd rfl (h3 i (by omega) hb1 hb2)
        · left
          show ∃ out : List Rc × Int, other = .ok out ∧ _
          rw [hother hor]
          exact bbc (k1 (Or.inr hor))
    · rw [h1]
      exact Or.inr ⟨rfl, by omega⟩
  cases hkc : kindOf c with
  | branchAndBound => exact Or.inl (bbc (k1 (Or.inl hkc)))
  | exhaustive =>
    left
    obtain ⟨out, g1, g2, g3, g4, _, g6, g7, _⟩ := Exhaustive.solve_spec (rnd := o.rnd) (t := t) ho3
      (hready (Or.inl hkc)) (k2 (Or.inl hkc)) hf hff hid
    exact ⟨out, g1, g2, g3, by omega, g6, g7⟩
  | unconstrainedBranchAndBound =>
    exact selc (Or.inr hkc) _ fun _ => rfl
  | unconstrainedExhaustive =>
    simp only [hkc] at hkind
    refine selc (Or.inl ?_) _ (by rw [hkc]; simp)
    simpa using hkind
  | linear =>
    simp only [hkc] at hkind
    refine selc (Or.inl ?_) _ (by rw [hkc]; simp)
    simpa using hkind

theorem updateRowZ_spec {t : ObjType} {csts : List Merged} {n : Nat} {z : ZSlv}
    (hz : makeZ csts n = .ok z) {k : Nat} {c : Merged} (hk : csts[k]? = some c)
    (hsat : ∃ y, satM y c) (hnd : (c.elems.map FunElem.var).Nodup) {o : ZRow} (ho : o.Ok t)
    (hkind : kindOf c = .branchAndBound ∨ kindOf c = .unconstrainedBranchAndBound ∨
      kindOf c = .exhaustive ∨
      ∃ i ≤ c.elems.length, (rowBound c).min ≤ psum (o.sort (reduced o.cost c.elems)) i ∧
        psum (o.sort (reduced o.cost c.elems)) i ≤ (rowBound c).max) (x : Assign) :
    (∃ x', updateRowZ t z o k x = .ok x' ∧ satM x' c) ∨
    (updateRowZ t z o k x = .error (.ub "R[i]") ∧ z.slv.cap ≤ c.elems.length) := by
  obtain ⟨_, _, _, hrows⟩ := makeZ_facts hz
  obtain ⟨hr, hb, hkd, _⟩ := hrows k c hk
  unfold updateRowZ
  simp only [hr, hb, hkd, ok_bind]
  rcases choose_spec hz hk hsat hnd ho hkind with ⟨out, h1, h2, _, h4, h5⟩ | ⟨h1, h2⟩
  · rw [h1]
    simp only [ok_bind]
    rcases affect_of_choose hz hk hnd h2 h4 h5 x with ⟨x', g1, g2, _⟩ | ⟨g1, g2⟩
    · exact Or.inl ⟨x', g1, g2⟩
    · exact Or.inr ⟨g1, g2⟩
  · rw [h1]
    exact Or.inr ⟨rfl, h2⟩

theorem setAll_frame {row : List FunElem} {j : Nat} (hj : ∀ e ∈ row, e.var ≠ j) (v : Bool) :
    ∀ (ids : List Nat) {x x' : Assign}, setAll row v x ids = .ok x' → x' j = x j
  | [], x, x', h => by rw [← Except.ok.inj h]
  | i :: is, x, x', h => by
    unfold setAll at h
    cases hi : row[i]? with
    | none => rw [hi] at h; simp at h
    | some e =>
      rw [hi] at h
      rw [setAll_frame hj v is h]
      have := hj e (List.mem_of_getElem? hi)
      simp [write, Ne.symm this]

/-- What holds of every update that returns. -/
theorem updateRowZ_ok {t : ObjType} {csts : List Merged} {n : Nat} {z : ZSlv}
    (hz : makeZ csts n = .ok z) {k : Nat} {c : Merged} (hk : csts[k]? = some c) {o : ZRow}
    {x x' : Assign} (h : updateRowZ t z o k x = .ok x') :
    satM x' c ∧ ∀ j, (∀ e ∈ c.elems, e.var ≠ j) → x' j = x j := by
  obtain ⟨hkind, _, _, hrows⟩ := makeZ_facts hz
  obtain ⟨hr, hb, hkd, hct, _⟩ := hrows k c hk
  unfold updateRowZ at h
  simp only [hr, hb, hkd, ok_bind] at h
  obtain ⟨out, _, h⟩ := bind_eq_ok.mp h
  unfold localAffect at h
  obtain ⟨y, hy, h⟩ := bind_eq_ok.mp h
  obtain ⟨v, hv, h⟩ := bind_eq_ok.mp h
  obtain ⟨_, hc, h⟩ := bind_eq_ok.mp h
  have := Except.ok.inj h
  subst this
  have hv' : v = true := check_eq_ok.mp hc
  subst hv'
  constructor
  · unfold isValidConstraint at hv
    simp only [hr, hb, ok_bind, hkind, rowValue_lhs hct y, Except.ok.injEq, Bool.and_eq_true,
      decide_eq_true_eq] at hv
    exact (ctor_exact hct y).mp hv
  · intro j hj
    unfold localAffectX at hy
    split at hy
    · obtain ⟨_, _, hy⟩ := bind_eq_ok.mp hy
      exact setAll_frame hj _ _ hy
    · split at hy
      · obtain ⟨_, _, hy⟩ := bind_eq_ok.mp hy
        exact setAll_frame hj _ _ hy
      · obtain ⟨_, _, hy⟩ := bind_eq_ok.mp hy
        obtain ⟨_, _, hy⟩ := bind_eq_ok.mp hy
        obtain ⟨x1, h1, hy⟩ := bind_eq_ok.mp hy
        rw [setAll_frame hj _ _ hy, setAll_frame hj _ _ h1]

end Bx.ZSolver
