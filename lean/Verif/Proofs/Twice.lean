import Verif.Spec.Twice
import Verif.Model.Tuners
import Verif.Proofs.Outcome
import Verif.Props.Merge

/-! # Lemmas for C138: constraints written several times, and the preprocessing -/

namespace Bx.Twice

open Spec Preprocess

variable {φ : Int → Int}

/-- `Repeats` with the index, in the first list, of each constraint of the second. -/
inductive Idx (φ : Int → Int) : List Nat → List Constr → List Constr → Prop
  | nil : Idx φ [] [] []
  | new {π l l'} (c : Constr) (h : Idx φ π l l') : Idx φ (π ++ [l.length]) (l ++ [c]) (l' ++ [renumber φ c])
  | again {π l l'} (j : Nat) (c t : Constr) (h : Idx φ π l l') (hc : l[j]? = some c) (he : t.elems = c.elems)
      (hv : t.value = c.value) : Idx φ (π ++ [j]) l (l' ++ [t])

theorem exists_idx {l l' : List Constr} (h : Repeats φ l l') : ∃ π, Idx φ π l l' := by
  induction h with
  | nil => exact ⟨[], .nil⟩
  | new c _ ih => obtain ⟨π, h⟩ := ih; exact ⟨_, .new c h⟩
  | again c t _ hc he hv ih =>
    obtain ⟨π, h⟩ := ih
    obtain ⟨j, hj⟩ := List.mem_iff_getElem?.mp hc
    exact ⟨_, .again j c t h hj he hv⟩

theorem Idx.repeats {π : List Nat} {l l' : List Constr} (h : Idx φ π l l') : Repeats φ l l' := by
  induction h with
  | nil => exact .nil
  | new c _ ih => exact .new c ih
  | again j c t _ hc he hv ih => exact .again c t ih (List.mem_of_getElem? hc) he hv

theorem Idx.length {π : List Nat} {l l' : List Constr} (h : Idx φ π l l') : π.length = l'.length := by
  induction h with
  | nil => rfl
  | new c _ ih => simp [ih]
  | again j c t _ hc he hv ih => simp [ih]

/-- Each constraint of the second list repeats one of the first. -/
theorem _root_.Bx.Spec.Repeats.mem {l l' : List Constr} (h : Repeats φ l l') : ∀ t ∈ l', ∃ c ∈ l, t.elems = c.elems ∧
    t.value = c.value := by
  induction h with
  | nil => simp
  | new c _ ih =>
    intro t ht
    rcases List.mem_append.mp ht with ht | ht
    · obtain ⟨c', h1, h2⟩ := ih t ht
      exact ⟨c', List.mem_append_left _ h1, h2⟩
    · obtain rfl := List.mem_singleton.mp ht
      exact ⟨c, by simp, rfl, rfl⟩
  | again c t _ hc he hv ih =>
    intro t' ht
    rcases List.mem_append.mp ht with ht | ht
    · exact ih t' ht
    · obtain rfl := List.mem_singleton.mp ht
      exact ⟨c, hc, he, hv⟩

theorem _root_.Bx.Spec.Repeats.mem' {l l' : List Constr} (h : Repeats φ l l') : ∀ c ∈ l, renumber φ c ∈ l' := by
  induction h with
  | nil => simp
  | new c _ ih =>
    intro t ht
    rcases List.mem_append.mp ht with ht | ht
    · exact List.mem_append_left _ (ih t ht)
    · obtain rfl := List.mem_singleton.mp ht
      simp
  | again c t _ hc he hv ih => exact fun t' ht => List.mem_append_left _ (ih t' ht)

theorem _root_.Bx.Spec.Repeats.all {l l' : List Constr} (h : Repeats φ l l') (p : Constr → Bool)
    (hp : ∀ a b : Constr, a.elems = b.elems → a.value = b.value → p a = p b) : l'.all p = l.all p := by
  rw [Bool.eq_iff_iff, List.all_eq_true, List.all_eq_true]
  constructor
  · intro h1 c hc
    exact (hp (renumber φ c) c rfl rfl) ▸ h1 _ (h.mem' c hc)
  · intro h1 t ht
    obtain ⟨c, hc, he, hv⟩ := h.mem t ht
    exact (hp t c he hv).symm ▸ h1 c hc

theorem _root_.Bx.Spec.Repeats.isEmpty {l l' : List Constr} (h : Repeats φ l l') : l'.isEmpty = l.isEmpty := by
  rw [Bool.eq_iff_iff, List.isEmpty_iff, List.isEmpty_iff]
  constructor
  · rintro rfl
    cases l with
    | nil => rfl
    | cons c _ => exact absurd (h.mem' c (by simp)) (by simp)
  · rintro rfl
    cases l' with
    | nil => rfl
    | cons t _ => obtain ⟨c, hc, _⟩ := h.mem t (by simp); exact absurd hc (by simp)

theorem validIndex_repeats {l l' : List Constr} (h : Repeats φ l l') (n : Nat) : validIndex l' n = validIndex l n :=
  h.all _ fun a b he _ => by rw [he]

/-- The same problem with constraints written several times. -/
structure Rel (φ : Int → Int) (pb pb' : Problem) : Prop where
  rest : pb' = { pb with eqs := pb'.eqs, ges := pb'.ges, les := pb'.les }
  lists : ∀ k, Repeats φ (csts pb k) (csts pb' k)

/-- Two computations that stop for the same reason or return related values. -/
def Both {α : Type} (R : α → α → Prop) (a b : Outcome α) : Prop :=
  (∃ e, a = .error e ∧ b = .error e) ∨ ∃ x y, a = .ok x ∧ b = .ok y ∧ R x y

theorem Both.bind {α β : Type} {R : α → α → Prop} {S : β → β → Prop} {a b : Outcome α} {f g : α → Outcome β}
    (h : Both R a b) (hf : ∀ x y, R x y → Both S (f x) (g y)) : Both S (a >>= f) (b >>= g) := by
  rcases h with ⟨e, rfl, rfl⟩ | ⟨x, y, rfl, rfl, h⟩
  · exact .inl ⟨e, rfl, rfl⟩
  · exact hf x y h

theorem Both.mono {α : Type} {R S : α → α → Prop} {a b : Outcome α} (h : Both R a b) (hs : ∀ x y, R x y → S x y) :
    Both S a b := by
  rcases h with h | ⟨x, y, h1, h2, h3⟩
  · exact .inl h
  · exact .inr ⟨x, y, h1, h2, hs x y h3⟩

theorem Both.refl {α : Type} (a : Outcome α) : Both Eq a a := by
  cases a with
  | error e => exact .inl ⟨e, rfl, rfl⟩
  | ok x => exact .inr ⟨x, x, rfl, rfl, rfl⟩

/-! ## Actions on one constraint -/

/-- `lifo.emplace` of several variables. -/
def pushes (lifo ps : List (Nat × Bool)) : List (Nat × Bool) := ps.foldl (fun l p => lifoEmplace l p.1 p.2) lifo

theorem keys_lifoEmplace (lifo : List (Nat × Bool)) (i : Nat) (b : Bool) (q : Nat) :
    q ∈ (lifoEmplace lifo i b).map Prod.fst ↔ q ∈ lifo.map Prod.fst ∨ q = i := by
  unfold lifoEmplace
  split
  · rename_i h
    simp only [List.any_eq_true, beq_iff_eq] at h
    obtain ⟨p, hp, rfl⟩ := h
    constructor
    · exact Or.inl
    · rintro (h | rfl)
      · exact h
      · exact List.mem_map_of_mem hp
  · rw [List.map_cons, List.mem_cons, or_comm]

theorem keys_pushes : ∀ (ps lifo : List (Nat × Bool)) (q : Nat),
    q ∈ (pushes lifo ps).map Prod.fst ↔ q ∈ lifo.map Prod.fst ∨ q ∈ ps.map Prod.fst
  | [], lifo, q => by simp [pushes]
  | p :: ps, lifo, q => by
    show q ∈ (pushes (lifoEmplace lifo p.1 p.2) ps).map Prod.fst ↔ _
    rw [keys_pushes ps, keys_lifoEmplace, List.map_cons, List.mem_cons, or_assoc]

theorem pushes_known : ∀ (ps lifo : List (Nat × Bool)), (∀ q ∈ ps.map Prod.fst, q ∈ lifo.map Prod.fst) →
    pushes lifo ps = lifo
  | [], _, _ => rfl
  | p :: ps, lifo, h => by
    have h1 : lifoEmplace lifo p.1 p.2 = lifo := by
      unfold lifoEmplace
      have := h p.1 (by simp)
      rw [if_pos]
      obtain ⟨p', h1, h2⟩ := List.mem_map.mp this
      exact List.any_eq_true.mpr ⟨p', h1, by simpa using h2⟩
    show pushes (lifoEmplace lifo p.1 p.2) ps = lifo
    rw [h1]
    exact pushes_known ps lifo fun q hq => h q (by simp only [List.map_cons, List.mem_cons]; exact Or.inr hq)

theorem pushes_append (lifo a b : List (Nat × Bool)) : pushes (pushes lifo a) b = pushes lifo (a ++ b) := by
  unfold pushes
  rw [List.foldl_append]

/-- What an action does: the new counter and the variables that it pushes. -/
abbrev Act := Constr → List (Nat × Bool) → Int → Outcome (Int × List (Nat × Bool))

/-- The action on the constraint number `i` of the kind `k`. -/
def Act.at (A : Act) (k : Kind) (st : St) (p : Constr × Nat) : Outcome St := do
  let q ← A p.1 st.vars (st.cnt k p.2)
  .ok { vars := st.vars, cnt := setCnt st.cnt k p.2 q.1, lifo := pushes st.lifo q.2 }

def Act.Ok (A : Act) : Prop := ∀ c t vars x, t.elems = c.elems → t.value = c.value → A t vars x = A c vars x

theorem setCnt_self (cnt : Kind → Nat → Int) (k : Kind) (i : Nat) : setCnt cnt k i (cnt k i) = cnt := by
  funext k' i'
  unfold setCnt
  split
  · rename_i h; rw [h.1, h.2]
  · rfl

theorem setCnt_eq (cnt : Kind → Nat → Int) (k : Kind) (i : Nat) (x : Int) : setCnt cnt k i x k i = x := by
  simp [setCnt]

theorem setCnt_ne (cnt : Kind → Nat → Int) (k : Kind) (i : Nat) (x : Int) {k' : Kind} {i' : Nat}
    (h : ¬ (k' = k ∧ i' = i)) : setCnt cnt k i x k' i' = cnt k' i' := by
  unfold setCnt
  rw [if_neg h]

/-- The states after the same actions on the two lists. -/
structure After (A : Act) (k : Kind) (π : List Nat) (l l' : List Constr) (st st' s s' : St) : Prop where
  vars : s.vars = st.vars
  vars' : s'.vars = st.vars
  lifo : s'.lifo = s.lifo
  cnt : ∀ i j, π[i]? = some j → s'.cnt k i = s.cnt k j
  later : ∀ i, l.length ≤ i → s.cnt k i = st.cnt k i
  later' : ∀ i, l'.length ≤ i → s'.cnt k i = st'.cnt k i
  other : ∀ k', k' ≠ k → s.cnt k' = st.cnt k'
  other' : ∀ k', k' ≠ k → s'.cnt k' = st'.cnt k'
  settled : ∀ j c, l[j]? = some c → ∃ ps, A c st.vars (st.cnt k j) = .ok (s.cnt k j, ps) ∧
    ∀ q ∈ ps.map Prod.fst, q ∈ s.lifo.map Prod.fst

theorem Idx.lt {π : List Nat} {l l' : List Constr} (h : Idx φ π l l') : ∀ j ∈ π, j < l.length := by
  induction h with
  | nil => simp
  | new c _ ih =>
    intro j hj
    rw [List.length_append, List.length_singleton]
    rcases List.mem_append.mp hj with hj | hj
    · have := ih j hj
      omega
    · obtain rfl := List.mem_singleton.mp hj
      omega
  | again j' c t _ hc he hv ih =>
    intro j hj
    rcases List.mem_append.mp hj with hj | hj
    · exact ih j hj
    · obtain rfl := List.mem_singleton.mp hj
      exact (List.getElem?_eq_some_iff.mp hc).1

theorem snoc_getElem? {α : Type} {π : List α} {a b : α} {i : Nat} (h : (π ++ [a])[i]? = some b) :
    (i < π.length ∧ π[i]? = some b) ∨ (i = π.length ∧ b = a) := by
  by_cases hi : i < π.length
  · rw [List.getElem?_append_left hi] at h
    exact .inl ⟨hi, h⟩
  · rw [List.getElem?_append_right (by omega)] at h
    have := (List.getElem?_eq_some_iff.mp h).1
    have h0 : i - π.length = 0 := by simpa using this
    rw [h0] at h
    simp at h
    exact .inr ⟨by omega, h.symm⟩

theorem acts_sim {A : Act} (hA : A.Ok) (k : Kind) {π : List Nat} {l l' : List Constr} (h : Idx φ π l l') :
    ∀ (st st' : St), st'.vars = st.vars → st'.lifo = st.lifo →
      (∀ i j, π[i]? = some j → st'.cnt k i = st.cnt k j) →
      Both (After A k π l l' st st') (l.zipIdx.foldlM (A.at k) st) (l'.zipIdx.foldlM (A.at k) st') := by
  induction h with
  | nil =>
    intro st st' hv hl hc
    exact .inr ⟨st, st', rfl, rfl, rfl, hv, hl, hc, fun _ _ => rfl, fun _ _ => rfl, fun _ _ => rfl,
      fun _ _ => rfl, fun j c hj => by simp at hj⟩
  | @new π l l' c h ih =>
    intro st st' hv hl hc
    have hlen := h.length
    have hpre : ∀ i j, π[i]? = some j → st'.cnt k i = st.cnt k j := by
      intro i j hij
      refine hc i j ?_
      rw [List.getElem?_append_left (List.getElem?_eq_some_iff.mp hij).1]
      exact hij
    rw [List.zipIdx_append, List.zipIdx_append, List.foldlM_append, List.foldlM_append]
    refine Both.bind (ih st st' hv hl hpre) ?_
    intro s s' hs
    have hx : s'.cnt k l'.length = s.cnt k l.length := by
      rw [hs.later _ (Nat.le_refl _), hs.later' _ (Nat.le_refl _)]
      refine hc _ _ ?_
      rw [← hlen]
      simp
    simp only [List.zipIdx_singleton, List.foldlM_cons, List.foldlM_nil, Act.at, Nat.zero_add]
    rw [hs.vars, hs.vars', hx, hA c (renumber φ c) _ _ rfl rfl, hs.lifo]
    cases hq : A c st.vars (s.cnt k l.length) with
    | error e => exact .inl ⟨e, rfl, rfl⟩
    | ok q =>
      refine .inr ⟨_, _, rfl, rfl, ?_⟩
      refine ⟨rfl, rfl, rfl, ?_, ?_, ?_, ?_, ?_, ?_⟩
      · intro i j hij
        show setCnt s'.cnt k l'.length q.1 k i = setCnt s.cnt k l.length q.1 k j
        rcases snoc_getElem? hij with ⟨hi, hij⟩ | ⟨rfl, rfl⟩
        · have hjl := h.lt j (List.mem_of_getElem? hij)
          rw [setCnt_ne _ _ _ _ (by omega), setCnt_ne _ _ _ _ (by omega)]
          exact hs.cnt i j hij
        · rw [hlen, setCnt_eq, setCnt_eq]
      · intro i hi
        rw [List.length_append, List.length_singleton] at hi
        exact (setCnt_ne _ _ _ _ (by omega)).trans (hs.later i (by omega))
      · intro i hi
        rw [List.length_append, List.length_singleton] at hi
        exact (setCnt_ne _ _ _ _ (by omega)).trans (hs.later' i (by omega))
      · intro k' hk'
        rw [← hs.other k' hk']
        funext i
        exact setCnt_ne _ _ _ _ fun h => hk' h.1
      · intro k' hk'
        rw [← hs.other' k' hk']
        funext i
        exact setCnt_ne _ _ _ _ fun h => hk' h.1
      · intro j c' hj
        show ∃ ps, A c' st.vars (st.cnt k j) = .ok (setCnt s.cnt k l.length q.1 k j, ps) ∧
          ∀ p ∈ ps.map Prod.fst, p ∈ (pushes s.lifo q.2).map Prod.fst
        rcases snoc_getElem? hj with ⟨hi, hj⟩ | ⟨rfl, rfl⟩
        · obtain ⟨ps, h1, h2⟩ := hs.settled j c' hj
          refine ⟨ps, ?_, fun p hp => (keys_pushes _ _ _).mpr (.inl (h2 p hp))⟩
          rw [setCnt_ne _ _ _ _ (by omega)]
          exact h1
        · refine ⟨q.2, ?_, fun p hp => (keys_pushes _ _ _).mpr (.inr hp)⟩
          rw [setCnt_eq, ← hs.later _ (Nat.le_refl _)]
          exact hq
  | @again π l l' j c t h hj he hv0 ih =>
    intro st st' hv hl hc
    have hlen := h.length
    have hpre : ∀ i j, π[i]? = some j → st'.cnt k i = st.cnt k j := by
      intro i j hij
      refine hc i j ?_
      rw [List.getElem?_append_left (List.getElem?_eq_some_iff.mp hij).1]
      exact hij
    rw [List.zipIdx_append, List.foldlM_append]
    rcases ih st st' hv hl hpre with ⟨e, h1, h2⟩ | ⟨s, s', h1, h2, hs⟩
    · rw [h1, h2]
      exact .inl ⟨e, rfl, rfl⟩
    · rw [h1, h2]
      have hx : s'.cnt k l'.length = st.cnt k j := by
        rw [hs.later' _ (Nat.le_refl _)]
        refine hc _ _ ?_
        rw [← hlen]
        simp
      obtain ⟨ps, h3, h4⟩ := hs.settled j c hj
      rw [ok_bind]
      simp only [List.zipIdx_singleton, List.foldlM_cons, List.foldlM_nil, Act.at, Nat.zero_add]
      rw [hs.vars', hx, hA c t _ _ he hv0, h3, ok_bind, pushes_known ps s'.lifo (by rw [hs.lifo]; exact h4)]
      refine .inr ⟨_, _, rfl, rfl, hs.vars, rfl, hs.lifo, ?_, hs.later, ?_, hs.other, ?_, hs.settled⟩
      · intro i i' hij
        show setCnt s'.cnt k l'.length (s.cnt k j) k i = s.cnt k i'
        rcases snoc_getElem? hij with ⟨hi, hij⟩ | ⟨rfl, rfl⟩
        · rw [setCnt_ne _ _ _ _ (by omega)]
          exact hs.cnt i i' hij
        · rw [hlen, setCnt_eq]
      · intro i hi
        rw [List.length_append, List.length_singleton] at hi
        exact (setCnt_ne _ _ _ _ (by omega)).trans (hs.later' i (by omega))
      · intro k' hk'
        rw [← hs.other' k' hk']
        funext i
        exact setCnt_ne _ _ _ _ fun h => hk' h.1

/-! ## The two actions of the preprocessing -/

theorem reduceKind_congr (k : Kind) (vars : List (Nat × Bool)) {c t : Constr} (he : t.elems = c.elems)
    (hv : t.value = c.value) : reduceKind k vars t = reduceKind k vars c := by
  unfold reduceKind
  rw [he, hv]

theorem pushOpt_eq (lifo : List (Nat × Bool)) (v : Option (Nat × Bool)) : pushOpt lifo v = pushes lifo v.toList := by
  cases v <;> rfl

theorem pushAll_eq (lifo : List (Nat × Bool)) (c : Constr) (b : Bool) :
    pushAll lifo c b = pushes lifo (c.elems.map fun e => (e.var, b)) := by
  unfold pushAll pushes
  rw [List.foldl_map]

/-- `tryStep` as an action. -/
def tryAct (k : Kind) : Act := fun c vars x =>
  if x = 1 then do
    let v ← reduceKind k vars c
    .ok (0, v.toList)
  else
    match shortcut k c with
    | none => .ok (x, [])
    | some none => .ok (0, [])
    | some (some b) => .ok (0, c.elems.map fun e => (e.var, b))

theorem shortcut_congr (k : Kind) {c t : Constr} (he : t.elems = c.elems) (hv : t.value = c.value) :
    shortcut k t = shortcut k c := by
  unfold shortcut allFactorPositive sumFactor
  rw [he, hv]

theorem tryAct_ok (k : Kind) : (tryAct k).Ok := by
  intro c t vars x he hv
  unfold tryAct
  rw [reduceKind_congr k vars he hv, shortcut_congr k he hv, he]

theorem tryStep_eq (k : Kind) : tryStep k = (tryAct k).at k := by
  funext st p
  obtain ⟨c, i⟩ := p
  unfold tryStep Act.at tryAct
  simp only
  split
  · cases reduceKind k st.vars c with
    | error e => rfl
    | ok v => simp only [ok_bind, pushOpt_eq]
  · cases hs : shortcut k c with
    | none => simp only [ok_bind, setCnt_self]; rfl
    | some o =>
      cases o with
      | none => rfl
      | some b => simp only [ok_bind, pushAll_eq]

/-- One turn of `step` as an action. -/
def stepAct (k : Kind) : Act := fun c vars x =>
  if x ≤ 0 then .ok (x, [])
  else if x - 1 = 1 then do
    let v ← reduceKind k vars c
    .ok (0, v.toList)
  else .ok (x - 1, [])

theorem step_eq (pb : Problem) {k : Kind} {i : Nat} {c : Constr} (h : (csts pb k)[i]? = some c) (st : St) :
    step pb st (k, i) = (stepAct k).at k st (c, i) := by
  unfold step Act.at stepAct
  simp only [h]
  split
  · simp only [ok_bind, setCnt_self]; rfl
  · split
    · cases reduceKind k st.vars c with
      | error e => rfl
      | ok v => simp only [ok_bind, pushOpt_eq]
    · rfl

/-- An action made `n` times. -/
def Act.times (A : Act) : Nat → Act
  | 0 => fun _ _ x => .ok (x, [])
  | n + 1 => fun c vars x => do
    let q ← A c vars x
    let r ← Act.times A n c vars q.1
    .ok (r.1, q.2 ++ r.2)

theorem times_at (A : Act) (k : Kind) (c : Constr) (i : Nat) : ∀ (n : Nat) (st : St),
    (List.replicate n (c, i)).foldlM (A.at k) st = (A.times n).at k st (c, i)
  | 0, st => by
    show Except.ok st = _
    simp only [Act.at, Act.times, ok_bind, setCnt_self]
    rfl
  | n + 1, st => by
    rw [List.replicate_succ, List.foldlM_cons]
    simp only [times_at A k c i n]
    simp only [Act.at, Act.times]
    cases A c st.vars (st.cnt k i) with
    | error e => rfl
    | ok q =>
      simp only [ok_bind, setCnt_eq]
      cases Act.times A n c st.vars q.1 with
      | error e => rfl
      | ok r =>
        simp only [ok_bind, pushes_append]
        congr 2
        funext k' i'
        unfold setCnt
        split <;> rfl

theorem times_ok {A : Act} (h : A.Ok) : ∀ (n : Nat) (c t : Constr) (vars : List (Nat × Bool)) (x : Int),
    t.elems = c.elems → t.value = c.value → A.times n t vars x = A.times n c vars x
  | 0, _, _, _, _, _, _ => rfl
  | n + 1, c, t, vars, x, he, hv => by
    simp only [Act.times]
    rw [h c t vars x he hv]
    simp only [fun y => times_ok h n c t vars y he hv]

/-- How many terms of a constraint have the variable. -/
def occ (v : Nat) (c : Constr) : Nat := (c.elems.filter fun e => e.var == v).length

/-- The turns of `step` for one constraint of a variable. -/
def visitAct (k : Kind) (v : Nat) : Act := fun c => (stepAct k).times (occ v c) c

theorem stepAct_ok (k : Kind) : (stepAct k).Ok := by
  intro c t vars x he hv
  unfold stepAct
  rw [reduceKind_congr k vars he hv]

theorem visitAct_ok (k : Kind) (v : Nat) : (visitAct k v).Ok := by
  intro c t vars x he hv
  have : occ v t = occ v c := by unfold occ; rw [he]
  unfold visitAct
  rw [this]
  exact times_ok (stepAct_ok k) _ _ _ _ _ he hv

theorem foldlM_cache (pb : Problem) (k : Kind) (v : Nat) : ∀ (l : List (Constr × Nat)) (st : St),
    (∀ p ∈ l, (csts pb k)[p.2]? = some p.1) →
    ((l.flatMap fun p => (p.1.elems.filter fun e => e.var == v).map fun _ => p.2).map fun i => (k, i)).foldlM
      (step pb) st = l.foldlM ((visitAct k v).at k) st
  | [], _, _ => rfl
  | (c, i) :: l, st, h => by
    rw [List.flatMap_cons, List.map_append, List.foldlM_append, List.foldlM_cons]
    have h1 : (((c.elems.filter fun e => e.var == v).map fun _ => i).map fun i => (k, i)).foldlM (step pb) st =
        (visitAct k v).at k st (c, i) := by
      rw [List.map_map, show ((fun i => (k, i)) ∘ fun _ : FunElem => i) = fun _ => (k, i) from rfl, List.map_const']
      show _ = ((stepAct k).times (occ v c)).at k st (c, i)
      rw [← times_at]
      show (List.replicate (occ v c) (k, i)).foldlM (step pb) st = _
      have hc := h (c, i) (by simp)
      generalize occ v c = n
      clear h
      induction n generalizing st with
      | zero => rfl
      | succ n ih =>
        rw [List.replicate_succ, List.foldlM_cons, List.replicate_succ, List.foldlM_cons, step_eq pb hc]
        cases (stepAct k).at k st (c, i) with
        | error e => rfl
        | ok s => exact ih s
    rw [h1]
    cases (visitAct k v).at k st (c, i) with
    | error e => rfl
    | ok s => exact foldlM_cache pb k v l s fun p hp => h p (List.mem_cons_of_mem _ hp)

theorem mem_zipIdx_get {l : List Constr} : ∀ p ∈ l.zipIdx, l[p.2]? = some p.1 := by
  intro p hp
  obtain ⟨c, i⟩ := p
  exact List.mem_zipIdx_iff_getElem?.mp hp

theorem foldlM_kind (pb : Problem) (k : Kind) (v : Nat) (st : St) :
    ((cacheOf (csts pb k) v).map fun i => (k, i)).foldlM (step pb) st =
      (csts pb k).zipIdx.foldlM ((visitAct k v).at k) st :=
  foldlM_cache pb k v _ st mem_zipIdx_get

/-! ## The two runs of the preprocessing -/

/-- The states of the two runs. -/
structure Sim (π : Kind → List Nat) (s s' : St) : Prop where
  vars : s'.vars = s.vars
  lifo : s'.lifo = s.lifo
  cnt : ∀ k i j, (π k)[i]? = some j → s'.cnt k i = s.cnt k j

theorem acts_both {A : Act} (hA : A.Ok) (k : Kind) {π : Kind → List Nat} {l l' : List Constr}
    (h : Idx φ (π k) l l') {st st' : St} (hs : Sim π st st') :
    Both (Sim π) (l.zipIdx.foldlM (A.at k) st) (l'.zipIdx.foldlM (A.at k) st') := by
  rcases acts_sim hA k h st st' hs.vars hs.lifo (hs.cnt k) with h1 | ⟨s, s', h1, h2, h3⟩
  · exact .inl h1
  · refine .inr ⟨s, s', h1, h2, h3.vars'.trans h3.vars.symm, h3.lifo, ?_⟩
    intro k' i j hij
    by_cases hk : k' = k
    · subst hk
      exact h3.cnt i j hij
    · rw [h3.other k' hk, h3.other' k' hk]
      exact hs.cnt k' i j hij

section
variable {pb pb' : Problem} {π : Kind → List Nat} (hπ : ∀ k, Idx φ (π k) (csts pb k) (csts pb' k))
include hπ

theorem visit_both (v : Nat) {st st' : St} (hs : Sim π st st') :
    Both (Sim π) ((visit pb v).foldlM (step pb) st) ((visit pb' v).foldlM (step pb') st') := by
  have h := fun k s s' (hs : Sim π s s') => acts_both (visitAct_ok k v) k (hπ k) hs
  simp only [← foldlM_kind] at h
  unfold visit
  rw [List.foldlM_append, List.foldlM_append, List.foldlM_append, List.foldlM_append]
  exact Both.bind (Both.bind (h .eq _ _ hs) (h .ge)) (h .le)

theorem try_both {st st' : St} (hs : Sim π st st') :
    Both (Sim π) (tryAffectVariable pb st) (tryAffectVariable pb' st') := by
  have h := fun k s s' (hs : Sim π s s') => acts_both (tryAct_ok k) k (hπ k) hs
  simp only [← tryStep_eq] at h
  unfold tryAffectVariable
  exact Both.bind (h .eq _ _ hs) fun s s' hs => Both.bind (h .ge _ _ hs) (h .le)

theorem affects_both : ∀ (fuel : Nat) (st st' : St), Sim π st st' →
    Both (Sim π) (affects pb fuel st) (affects pb' fuel st')
  | 0, st, st', hs => by
    unfold affects
    rw [hs.lifo]
    cases st.lifo with
    | nil => exact .inr ⟨_, _, rfl, rfl, hs⟩
    | cons _ _ => exact .inl ⟨_, rfl, rfl⟩
  | fuel + 1, st, st', hs => by
    unfold affects
    rw [hs.lifo]
    cases st.lifo with
    | nil => exact .inr ⟨_, _, rfl, rfl, hs⟩
    | cons top rest =>
      refine Both.bind (visit_both hπ top.1 ⟨?_, rfl, hs.cnt⟩) (affects_both fuel)
      show varsEmplace st'.vars top.1 top.2 = _
      rw [hs.vars]

omit hπ in
theorem mem_cacheOf {l : List Constr} {v i : Nat} :
    i ∈ cacheOf l v ↔ ∃ c, l[i]? = some c ∧ ∃ e ∈ c.elems, e.var = v := by
  unfold cacheOf
  simp only [List.mem_flatMap, List.mem_map, List.mem_filter, beq_iff_eq, Prod.exists]
  constructor
  · rintro ⟨c, j, h1, e, ⟨h2, h3⟩, rfl⟩
    exact ⟨c, List.mem_zipIdx_iff_getElem?.mp h1, e, h2, h3⟩
  · rintro ⟨c, h1, e, h2, h3⟩
    exact ⟨c, i, List.mem_zipIdx_iff_getElem?.mpr h1, e, ⟨h2, h3⟩, rfl⟩

omit hπ in
theorem mem_visit {pb : Problem} {v : Nat} {k : Kind} {i : Nat} :
    (k, i) ∈ visit pb v ↔ i ∈ cacheOf (csts pb k) v := by
  unfold visit
  cases k <;> simp [csts]

omit hπ in
/-- Each constraint of the second list has an index, and is the constraint with this index. -/
theorem Idx.get {π : List Nat} {l l' : List Constr} (h : Idx φ π l l') : ∀ (i : Nat) (t : Constr), l'[i]? = some t →
    ∃ (j : Nat) (c : Constr), π[i]? = some j ∧ l[j]? = some c ∧ t.elems = c.elems ∧ t.value = c.value := by
  induction h with
  | nil => simp
  | @new π l l' c h ih =>
    intro i t ht
    rcases snoc_getElem? ht with ⟨hi, ht⟩ | ⟨rfl, rfl⟩
    · obtain ⟨j, c', h1, h2, h3⟩ := ih i t ht
      refine ⟨j, c', ?_, ?_, h3⟩
      · rw [List.getElem?_append_left (List.getElem?_eq_some_iff.mp h1).1, h1]
      · rw [List.getElem?_append_left (List.getElem?_eq_some_iff.mp h2).1, h2]
    · refine ⟨l.length, c, ?_, by simp, rfl, rfl⟩
      rw [← h.length]
      simp
  | @again π l l' j c t h hj he hv ih =>
    intro i t' ht
    rcases snoc_getElem? ht with ⟨hi, ht⟩ | ⟨rfl, rfl⟩
    · obtain ⟨j, c', h1, h2, h3⟩ := ih i t' ht
      refine ⟨j, c', ?_, h2, h3⟩
      rw [List.getElem?_append_left (List.getElem?_eq_some_iff.mp h1).1, h1]
    · refine ⟨j, c, ?_, hj, he, hv⟩
      rw [← h.length]
      simp

omit hπ in
theorem Idx.get' {π : List Nat} {l l' : List Constr} (h : Idx φ π l l') : ∀ (j : Nat) (c : Constr), l[j]? = some c →
    ∃ (i : Nat) (t : Constr), π[i]? = some j ∧ l'[i]? = some t ∧ t.elems = c.elems := by
  induction h with
  | nil => simp
  | @new π l l' c h ih =>
    intro j c' hj
    rcases snoc_getElem? hj with ⟨hi, hj⟩ | ⟨rfl, rfl⟩
    · obtain ⟨i, t, h1, h2, h3⟩ := ih j c' hj
      refine ⟨i, t, ?_, ?_, h3⟩
      · rw [List.getElem?_append_left (List.getElem?_eq_some_iff.mp h1).1, h1]
      · rw [List.getElem?_append_left (List.getElem?_eq_some_iff.mp h2).1, h2]
    · refine ⟨l'.length, renumber φ c', ?_, by simp, rfl⟩
      rw [← h.length]
      simp
  | @again π l l' j c t h hj he hv ih =>
    intro j' c' hj'
    obtain ⟨i, t, h1, h2, h3⟩ := ih j' c' hj'
    refine ⟨i, t, ?_, ?_, h3⟩
    · rw [List.getElem?_append_left (List.getElem?_eq_some_iff.mp h1).1, h1]
    · rw [List.getElem?_append_left (List.getElem?_eq_some_iff.mp h2).1, h2]

theorem isUnused_both {s s' : St} (hs : Sim π s s') (v : Nat) : isUnused pb' s' v = isUnused pb s v := by
  unfold isUnused
  rw [Bool.eq_iff_iff, List.all_eq_true, List.all_eq_true]
  constructor
  · rintro h ⟨k, j⟩ hj
    obtain ⟨c, h1, e, h2, h3⟩ := mem_cacheOf.mp (mem_visit.mp hj)
    obtain ⟨i, t, h4, h5, h6⟩ := (hπ k).get' j c h1
    have := h (k, i) (mem_visit.mpr (mem_cacheOf.mpr ⟨t, h5, e, h6 ▸ h2, h3⟩))
    rw [← hs.cnt k i j h4]
    exact this
  · rintro h ⟨k, i⟩ hi
    obtain ⟨t, h1, e, h2, h3⟩ := mem_cacheOf.mp (mem_visit.mp hi)
    obtain ⟨j, c, h4, h5, h6, -⟩ := (hπ k).get i t h1
    have := h (k, j) (mem_visit.mpr (mem_cacheOf.mpr ⟨c, h5, e, h6 ▸ h2, h3⟩))
    rw [hs.cnt k i j h4]
    exact this

theorem initCnt_sim (vars lifo : List (Nat × Bool)) : Sim π { vars := vars, cnt := initCnt pb, lifo := lifo }
    { vars := vars, cnt := initCnt pb', lifo := lifo } := by
  refine ⟨rfl, rfl, ?_⟩
  intro k i j hij
  have hi : i < (csts pb' k).length := by
    rw [← (hπ k).length]
    exact (List.getElem?_eq_some_iff.mp hij).1
  obtain ⟨j', c, h1, h2, h3, -⟩ := (hπ k).get i _ (List.getElem?_eq_getElem hi)
  obtain rfl := Option.some.inj (hij.symm.trans h1)
  unfold initCnt
  simp only [h2, List.getElem?_eq_getElem hi, h3]

theorem removeUnused_both (hr : pb' = { pb with eqs := pb'.eqs, ges := pb'.ges, les := pb'.les }) {s s' : St}
    (hs : Sim π s s') : Sim π (removeUnused pb s) (removeUnused pb' s') := by
  unfold removeUnused
  have hu : ∀ i, unusedValue pb' i = unusedValue pb i := by rw [hr]; intro i; rfl
  have hn : pb'.values = pb.values := by rw [hr]
  rw [hn]
  generalize List.range pb.values.length = l
  induction l generalizing s s' with
  | nil => exact hs
  | cons i l ih =>
    rw [List.foldl_cons, List.foldl_cons]
    apply ih
    rw [isUnused_both hπ hs, hs.vars, hu]
    split
    · exact ⟨rfl, hs.lifo, hs.cnt⟩
    · exact hs

theorem bqpObjective_both (hr : pb' = { pb with eqs := pb'.eqs, ges := pb'.ges, les := pb'.les }) {s s' : St}
    (hs : Sim π s s') : bqpObjective pb' s' = bqpObjective pb s := by
  unfold bqpObjective
  have hu : bqpVariable pb' = bqpVariable pb := by rw [hr]; rfl
  have hn : pb'.values = pb.values := by rw [hr]
  rw [hn, hu, hs.vars]
  simp only [isUnused_both hπ hs]

end

/-! ## The reduced problem -/

theorem cstElems_congr (m : List Entry) : ∀ (es : List FunElem) (c t : Constr), t.elems = c.elems →
    t.value = c.value → Both (fun a b => b.elems = a.elems ∧ b.value = a.value ∧ a.id = c.id ∧ b = { t with elems := b.elems, value := b.value } ∧ a = { c with elems := a.elems, value := a.value })
      (cstElems m c es) (cstElems m t es)
  | [], c, t, he, hv => .inr ⟨c, t, rfl, rfl, he, hv, rfl, rfl, rfl⟩
  | e :: es, c, t, he, hv => by
    unfold cstElems
    cases m[e.var]? with
    | none => exact .inl ⟨_, rfl, rfl⟩
    | some y =>
      cases y with
      | kept j =>
        exact cstElems_congr m es { c with elems := c.elems ++ [⟨e.factor, j⟩] }
          { t with elems := t.elems ++ [⟨e.factor, j⟩] } (by rw [he]) hv
      | gone b =>
        exact cstElems_congr m es { c with value := if b then c.value - e.factor else c.value }
          { t with value := if b then t.value - e.factor else t.value } he (by rw [hv])

theorem cstCopy_append (m : List Entry) (cnt : Nat → Int) : ∀ a b : List (Constr × Nat),
    cstCopy m cnt (a ++ b) = (do let r ← cstCopy m cnt a; let r' ← cstCopy m cnt b; .ok (r ++ r'))
  | [], b => by
    simp only [List.nil_append, cstCopy, ok_bind]
    cases cstCopy m cnt b <;> rfl
  | (c, i) :: a, b => by
    rw [List.cons_append, cstCopy, cstCopy, cstCopy_append m cnt a b]
    split
    · rfl
    · cases cstElems m { c with elems := [] } c.elems with
      | error e => rfl
      | ok c' =>
        cases cstCopy m cnt a with
        | error e => rfl
        | ok r => cases cstCopy m cnt b <;> rfl

/-- The copies of the two lists, and what was copied. -/
structure Copies (φ : Int → Int) (m : List Entry) (cnt : Nat → Int) (l r r' : List Constr) : Prop where
  rep : Repeats φ r r'
  copied : ∀ j c, l[j]? = some c → ¬ cnt j ≤ 1 → ∃ a ∈ r, cstElems m { c with elems := [] } c.elems = .ok a
  ids : (r.map Constr.id).Sublist (l.map Constr.id)

theorem cstCopy_both (m : List Entry) (cnt cnt' : Nat → Int) {π : List Nat} {l l' : List Constr}
    (h : Idx φ π l l') : (∀ i j, π[i]? = some j → cnt' i = cnt j) →
    Both (Copies φ m cnt l) (cstCopy m cnt l.zipIdx) (cstCopy m cnt' l'.zipIdx) := by
  induction h with
  | nil =>
    intro _
    exact .inr ⟨[], [], rfl, rfl, .nil, by simp, by simp⟩
  | @new π l l' c h ih =>
    intro hc
    have hlen := h.length
    have hpre : ∀ i j, π[i]? = some j → cnt' i = cnt j := by
      intro i j hij
      refine hc i j ?_
      rw [List.getElem?_append_left (List.getElem?_eq_some_iff.mp hij).1]
      exact hij
    rw [List.zipIdx_append, List.zipIdx_append, cstCopy_append, cstCopy_append]
    refine Both.bind (ih hpre) ?_
    intro r r' hr
    have hx : cnt' l'.length = cnt l.length := by
      refine hc _ _ ?_
      rw [← hlen]
      simp
    simp only [List.zipIdx_singleton, cstCopy, Nat.zero_add, hx]
    split
    · rename_i hle
      refine .inr ⟨_, _, rfl, rfl, ?_⟩
      rw [List.append_nil, List.append_nil]
      refine ⟨hr.rep, ?_, ?_⟩
      · intro j c' hj hn
        rcases snoc_getElem? hj with ⟨-, hj⟩ | ⟨rfl, rfl⟩
        · exact hr.copied j c' hj hn
        · exact absurd hle hn
      · rw [List.map_append]
        exact hr.ids.trans (List.sublist_append_left _ _)
    · rename_i hle
      rcases cstElems_congr m c.elems { c with elems := [] } { renumber φ c with elems := [] } rfl rfl with
        ⟨e, h1, h2⟩ | ⟨a, b, h1, h2, h3, h4, h5, h6, h7⟩
      · rw [h1]
        have h2' : cstElems m { renumber φ c with elems := [] } (renumber φ c).elems = .error e := h2
        rw [h2']
        exact .inl ⟨e, rfl, rfl⟩
      · have h2' : cstElems m { renumber φ c with elems := [] } (renumber φ c).elems = .ok b := h2
        rw [h1, h2']
        refine .inr ⟨_, _, rfl, rfl, ?_⟩
        have hb : b = renumber φ a := by
          rw [h6, h7, h3, h4]
          rfl
        rw [hb]
        refine ⟨.new a hr.rep, ?_, ?_⟩
        · intro j c' hj hn
          rcases snoc_getElem? hj with ⟨-, hj⟩ | ⟨rfl, rfl⟩
          · obtain ⟨a', h8, h9⟩ := hr.copied j c' hj hn
            exact ⟨a', List.mem_append_left _ h8, h9⟩
          · exact ⟨a, by simp, h1⟩
        · rw [List.map_append, List.map_append]
          refine List.Sublist.append hr.ids ?_
          simp only [List.map_cons, List.map_nil, h5]
          exact List.Sublist.refl _
  | @again π l l' j c t h hj he hv ih =>
    intro hc
    have hlen := h.length
    have hpre : ∀ i j, π[i]? = some j → cnt' i = cnt j := by
      intro i j hij
      refine hc i j ?_
      rw [List.getElem?_append_left (List.getElem?_eq_some_iff.mp hij).1]
      exact hij
    rw [List.zipIdx_append, cstCopy_append]
    rcases ih hpre with ⟨e, h1, h2⟩ | ⟨r, r', h1, h2, hr⟩
    · rw [h1, h2]
      exact .inl ⟨e, rfl, rfl⟩
    · rw [h1, h2]
      have hx : cnt' l'.length = cnt j := by
        refine hc _ _ ?_
        rw [← hlen]
        simp
      simp only [List.zipIdx_singleton, cstCopy, Nat.zero_add, hx, ok_bind]
      split
      · refine .inr ⟨_, _, rfl, rfl, ?_⟩
        rw [List.append_nil]
        exact hr
      · rename_i hle
        obtain ⟨a, h3, h4⟩ := hr.copied j c hj hle
        rw [he]
        rcases cstElems_congr m c.elems { c with elems := [] } { t with elems := [] } rfl hv with
          ⟨e, h5, -⟩ | ⟨a', b, h5, h6, h7, h8, -⟩
        · rw [h4] at h5
          cases h5
        · obtain rfl := Except.ok.inj (h4.symm.trans h5)
          rw [h6]
          refine .inr ⟨_, _, rfl, rfl, ?_, hr.copied, hr.ids⟩
          exact .again a b hr.rep h3 h7 h8

theorem type_repeats {e g l e' g' l' : List Constr} (he : Repeats φ e e') (hg : Repeats φ g g')
    (hl : Repeats φ l l') : ProblemType.whichProblemType e' g' l' = ProblemType.whichProblemType e g l := by
  have hm : ∀ f, (f ∈ (e' ++ g' ++ l').flatMap fun c => c.elems.map FunElem.factor) ↔
      f ∈ (e ++ g ++ l).flatMap fun c => c.elems.map FunElem.factor := by
    intro f
    simp only [List.mem_flatMap, List.mem_append]
    constructor
    · rintro ⟨t, (ht | ht) | ht, hf⟩
      · obtain ⟨c, h1, h2, -⟩ := he.mem t ht
        exact ⟨c, .inl (.inl h1), h2 ▸ hf⟩
      · obtain ⟨c, h1, h2, -⟩ := hg.mem t ht
        exact ⟨c, .inl (.inr h1), h2 ▸ hf⟩
      · obtain ⟨c, h1, h2, -⟩ := hl.mem t ht
        exact ⟨c, .inr h1, h2 ▸ hf⟩
    · rintro ⟨c, (hc | hc) | hc, hf⟩
      · exact ⟨_, .inl (.inl (he.mem' c hc)), hf⟩
      · exact ⟨_, .inl (.inr (hg.mem' c hc)), hf⟩
      · exact ⟨_, .inr (hl.mem' c hc), hf⟩
  have hg0 : g' = [] ↔ g = [] := by
    rw [← List.isEmpty_iff, hg.isEmpty, List.isEmpty_iff]
  have hl0 : l' = [] ↔ l = [] := by
    rw [← List.isEmpty_iff, hl.isEmpty, List.isEmpty_iff]
  rw [Merge.C12_classification, Merge.C12_classification]
  simp only [hm, hg0, hl0]

/-! ## The preprocessing -/

/-- What the reduced problems have in common, and that the numbers of the constraints stay distinct. -/
structure Red (φ : Int → Int) (pb0 pb pb' : Problem) : Prop where
  rel : Rel φ pb pb'
  ids : ∀ k, ((csts pb k).map Constr.id).Sublist ((csts pb0 k).map Constr.id)

section
variable {pb pb' : Problem} (h : Rel φ pb pb')
include h

theorem makeProblem_both {π : Kind → List Nat} (hπ : ∀ k, Idx φ (π k) (csts pb k) (csts pb' k)) {st st' : St}
    (hs : Sim π st st') (mo : MergeObj) : Both (Red φ pb) (makeProblem pb st mo) (makeProblem pb' st' mo) := by
  have hr := h.rest
  have h1 : pb'.values = pb.values := by rw [hr]
  have h2 : pb'.names = pb.names := by rw [hr]
  have h3 : pb'.type = pb.type := by rw [hr]
  have h4 : pb'.affected = pb.affected := by rw [hr]
  have h5 : ∀ m, objCopy pb' m mo = objCopy pb m mo := by rw [hr]; intro m; rfl
  have h6 : ∀ vs i, varsCopy pb' st.vars vs i = varsCopy pb st.vars vs i := by
    intro vs
    induction vs with
    | nil => intro i; rfl
    | cons v vs ih =>
      intro i
      simp only [varsCopy, h2, ih]
  unfold makeProblem
  simp only [h1, h2, h3, h4, hs.vars, h5, h6]
  refine Both.bind (Both.refl _) ?_
  rintro _ _ rfl
  refine Both.bind (Both.refl _) ?_
  rintro obj _ rfl
  refine Both.bind (Both.refl _) ?_
  rintro q _ rfl
  obtain ⟨ns, vs, an, av⟩ := q
  refine Both.bind (Both.refl _) ?_
  rintro _ _ rfl
  refine Both.bind (cstCopy_both _ _ _ (hπ .eq) (hs.cnt .eq)) ?_
  intro eqs eqs' he
  refine Both.bind (cstCopy_both _ _ _ (hπ .ge) (hs.cnt .ge)) ?_
  intro ges ges' hg
  refine Both.bind (cstCopy_both _ _ _ (hπ .le) (hs.cnt .le)) ?_
  intro les les' hl
  rw [validIndex_repeats he.rep, validIndex_repeats hg.rep, validIndex_repeats hl.rep,
    type_repeats he.rep hg.rep hl.rep]
  refine Both.bind (Both.refl _) ?_
  rintro _ _ rfl
  refine .inr ⟨_, _, rfl, rfl, ⟨rfl, ?_⟩, ?_⟩
  · intro k
    cases k
    · exact he.rep
    · exact hg.rep
    · exact hl.rep
  · intro k
    cases k
    · exact he.ids
    · exact hg.ids
    · exact hl.ids

theorem finish_both {π : Kind → List Nat} (hπ : ∀ k, Idx φ (π k) (csts pb k) (csts pb' k)) {st st' : St}
    (hs : Sim π st st') : Both (Red φ pb) (finish pb st) (finish pb' st') := by
  unfold finish
  have h1 : pb'.values = pb.values := by rw [h.rest]
  rw [bqpObjective_both hπ h.rest hs, h1]
  refine Both.bind (affects_both hπ _ _ _ (removeUnused_both hπ h.rest hs)) ?_
  intro s s' hs
  exact makeProblem_both h hπ hs _

theorem exists_idxs : ∃ π : Kind → List Nat, ∀ k, Idx φ (π k) (csts pb k) (csts pb' k) := by
  have := fun k => exists_idx (h.lists k)
  exact ⟨fun k => (this k).choose, fun k => (this k).choose_spec⟩

theorem cacheInRange_both : cacheInRange pb' = cacheInRange pb := by
  have h1 : pb'.values = pb.values := by rw [h.rest]
  unfold cacheInRange
  have he := validIndex_repeats (h.lists .eq)
  have hg := validIndex_repeats (h.lists .ge)
  have hl := validIndex_repeats (h.lists .le)
  simp only [csts] at he hg hl
  rw [h1, he, hg, hl]

theorem run_both : Both (Red φ pb) (run pb) (run pb') := by
  obtain ⟨π, hπ⟩ := exists_idxs h
  have h1 : pb'.values = pb.values := by rw [h.rest]
  unfold run
  rw [cacheInRange_both h]
  split
  · exact .inl ⟨_, rfl, rfl⟩
  · refine Both.bind (try_both hπ (st := affectBounded pb { cnt := initCnt pb })
      (st' := affectBounded pb' { cnt := initCnt pb' }) ?_) ?_
    · unfold affectBounded
      rw [h1]
      exact initCnt_sim hπ _ _
    · intro s s' hs
      rw [h1]
      exact Both.bind (affects_both hπ _ _ _ hs) fun s s' hs => finish_both h hπ hs

theorem affect_both (v : Nat) (b : Bool) : Both (Red φ pb) (affect pb v b) (affect pb' v b) := by
  obtain ⟨π, hπ⟩ := exists_idxs h
  have h1 : pb'.values = pb.values := by rw [h.rest]
  unfold affect
  rw [cacheInRange_both h, h1]
  refine Both.bind (Both.refl _) ?_
  rintro _ _ rfl
  split
  · exact .inl ⟨_, rfl, rfl⟩
  · exact Both.bind (affects_both hπ _ _ _ (initCnt_sim hπ _ _)) fun s s' hs => finish_both h hπ hs

end

theorem ofRaw_both {raw raw' : RawProblem} (h : RepeatsRaw φ raw raw') :
    Rel φ (ProblemType.ofRaw raw) (ProblemType.ofRaw raw') := by
  refine ⟨?_, ?_⟩
  · unfold ProblemType.ofRaw
    simp only [h.type, h.objective, h.names, h.values, type_repeats h.eqs h.ges h.les]
  · intro k
    cases k
    · exact h.eqs
    · exact h.ges
    · exact h.les

theorem prepared_both (p : Bool) {raw raw' : RawProblem} (h : RepeatsRaw φ raw raw') :
    Both (Red φ (ProblemType.ofRaw raw)) (Itm.prepared p raw) (Itm.prepared p raw') := by
  have hr := ofRaw_both h
  unfold Itm.prepared
  cases p with
  | false => exact .inr ⟨_, _, rfl, rfl, hr, fun k => List.Sublist.refl _⟩
  | true => exact run_both hr

end Bx.Twice
