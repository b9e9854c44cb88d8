import Verif.Proofs.Recase

/-!
# The parser stops on a text that ends with `end`
-/

namespace Bx.Parser

open Params (D)

/-- What the source gives in a state: a list of tokens. -/
structure Views {σ : Type} (src : Source σ) (V : σ → List Token → Prop) : Prop where
  tok : ∀ {s ts i}, V s ts → i < 10 → src.tok s i = ts.getD i []
  pop : ∀ {s ts n}, V s ts → 1 ≤ n → n < 10 → V (src.pop s n) (ts.drop n)

theorem views_stream : Views streamSource (fun s ts => Window s 10 ts) where
  tok := fun h hi => h.text _ hi
  pop := fun h h1 h2 => h.pop h1 h2

/-- The result of a computation is not that its bound was reached, and otherwise `Q` holds. -/
def Fueled {α : Type} (Q : α → Prop) : PM α → Prop
  | .ok a => Q a
  | .error e => e ≠ .fault .fuel

theorem Fueled.bind {α β : Type} {Q : α → Prop} {Q' : β → Prop} {x : PM α} (h : Fueled Q x)
    {f : α → PM β} (hf : ∀ a, Q a → Fueled Q' (f a)) : Fueled Q' (x >>= f) := by
  cases x with
  | error e => exact h
  | ok a => exact hf a h

theorem fueled_orStop {α : Type} {Q : α → Prop} {o : Option α} {t : Tag}
    (h : ∀ a, o = some a → Q a) : Fueled Q (orStop o t) := by
  cases o with
  | none => intro hc; cases hc
  | some a => exact h a rfl

theorem fueled_readReal {scan : Token → Option D} {b : Token} :
    Fueled (fun r => r = none → scan b = none ∨ 320 < b.length) (readReal scan b) := by
  unfold readReal
  split
  · intro hc; cases hc
  · split
    · exact fun _ => .inr (by omega)
    · split
      · intro hc; cases hc
      · exact fun h => .inl h

theorem fueled_true {α : Type} {Q : α → Prop} {x : PM α} (h : Fueled Q x) :
    Fueled (fun _ => True) x := by
  cases x with
  | error e => exact h
  | ok a => trivial

theorem fueled_mono {α : Type} {Q Q' : α → Prop} {x : PM α} (h : Fueled Q x)
    (hq : ∀ a, Q a → Q' a) : Fueled Q' x := by
  cases x with
  | error e => exact h
  | ok a => exact hq a h

theorem fueled_real2 {scan : Token → Option D} {a b : Token} :
    Fueled (fun _ => True) (readReal2 scan a b) := by
  unfold readReal2
  split
  · exact fueled_readReal.bind fun o _ => by cases o <;> trivial
  · split
    · exact fueled_readReal.bind fun o _ => by cases o <;> trivial
    · exact fueled_readReal.bind fun o _ => by cases o <;> trivial

theorem fueled_elem {scan : Token → Option D} {a b c : Token} :
    Fueled (fun _ => True) (readElem scan a b c) := by
  unfold readElem
  refine fueled_real2.bind fun r _ => ?_
  simp only
  split
  · split <;> trivial
  · trivial

theorem fueled_quad {scan : Token → Option D} {a b c : Token} :
    Fueled (fun _ => True) (readQuad scan a b c) := by
  unfold readQuad
  refine fueled_real2.bind fun r _ => ?_
  simp only
  split
  · trivial
  · split <;> trivial

theorem fueled_left {scan : Token → Option D} {a b c d : Token} :
    Fueled (fun _ => True) (readLeft scan a b c d) := by
  unfold readLeft
  split
  · refine fueled_readReal.bind fun o _ => ?_
    cases o with
    | none => trivial
    | some v => simp only; split <;> trivial
  · refine fueled_readReal.bind fun o _ => ?_
    cases o with
    | none => trivial
    | some v => simp only; split <;> trivial

theorem fueled_signed {scan : Token → Option D} {n : Nat} {a b : Token} :
    Fueled (fun _ => True) (readSigned scan n a b) := by
  unfold readSigned
  split
  · exact fueled_readReal.bind fun o _ => by cases o <;> trivial
  · exact fueled_readReal.bind fun o _ => by cases o <;> trivial

theorem fueled_right {scan : Token → Option D} {a b c d : Token} :
    Fueled (fun _ => True) (readRight scan a b c d) := by
  unfold readRight
  split
  · trivial
  · split
    · exact fueled_signed
    · exact fueled_signed

theorem fueled_bound {scan : Token → Option D} {t : Nat → Token} :
    Fueled (fun _ => True) (readBound scan t) := by
  unfold readBound
  split
  · refine fueled_left.bind fun o _ => ?_
    cases o with
    | none => trivial
    | some v =>
      unfold readBoundLeft
      simp only
      split
      · trivial
      · split
        · trivial
        · refine fueled_right.bind fun o _ => ?_
          cases o with
          | none => trivial
          | some v => simp only; split <;> trivial
  · split
    · unfold readBoundName
      split
      · trivial
      · split
        · refine fueled_right.bind fun o _ => ?_
          cases o with
          | none => trivial
          | some v => trivial
        · trivial
    · trivial

theorem fueled_toInt {d : D} : Fueled (fun _ => True) (toInt d) := by
  unfold toInt
  simp only
  repeat' split
  all_goals first | trivial | (intro hc; cases hc)

theorem fueled_addFun {f : Int} {id : Nat} (l : List FunElem) :
    Fueled (fun _ => True) (addFun f id l) := by
  induction l with
  | nil => trivial
  | cons e es ih =>
    unfold addFun
    split
    · unfold addInt
      split
      · trivial
      · intro hc; cases hc
    · exact ih.bind fun _ _ => trivial

theorem fueled_setBound {p : PProblem} {lo hi : D} {n : Token} :
    Fueled (fun _ => True) (p.setBound lo hi n) := by
  unfold PProblem.setBound
  split
  · trivial
  · have h1 : ∀ d, Fueled (fun _ => True) (boundMin d) := fun d => by
      unfold boundMin; split
      · trivial
      · exact fueled_toInt
    have h2 : ∀ d, Fueled (fun _ => True) (boundMax d) := fun d => by
      unfold boundMax; split
      · trivial
      · exact fueled_toInt
    exact (h1 _).bind fun _ _ => (h2 _).bind fun _ _ => trivial

section

variable {σ : Type} {src : Source σ} {V : σ → List Token → Prop} {scan : Token → Option D}

/-- What is left after at least one token was read. -/
def Less (V : σ → List Token → Prop) (ts : List Token) (s : σ) : Prop :=
  ∃ us, V s us ∧ us <:+ ts ∧ (us.length < ts.length ∨ ts = [] ∧ us = [])

/-- What is left after any number of tokens was read. -/
def Left (V : σ → List Token → Prop) (ts : List Token) (s : σ) : Prop :=
  ∃ us, V s us ∧ us <:+ ts

theorem Less.left {ts : List Token} {s : σ} (h : Less V ts s) : Left V ts s := by
  obtain ⟨us, h1, h2, -⟩ := h
  exact ⟨us, h1, h2⟩

theorem fueled_pop (hv : Views src V) {s : σ} {ts : List Token} (h : V s ts) (n : Nat) :
    Fueled (Less V ts) (popFront src s n) := by
  unfold popFront
  split
  · rename_i hn
    refine ⟨ts.drop n, hv.pop h hn.1 hn.2, List.drop_suffix n ts, ?_⟩
    cases ts with
    | nil => exact .inr ⟨rfl, by simp⟩
    | cons a l => left; simp only [List.length_drop, List.length_cons]; omega
  · intro hc; cases hc

theorem fueled_product (hv : Views src V) {neg : Bool} {f : D} {n : Nat} {s s1 : σ}
    {p : PProblem} {ts : List Token} (h : V s1 ts) :
    Fueled (fun r => Less V ts r.1) (quadProduct src neg f n s s1 p) := by
  unfold quadProduct
  refine Fueled.bind (Q := fun _ => True) (fueled_orStop fun _ _ => trivial) fun _ _ => ?_
  refine Fueled.bind (Q := fun _ => True) (fueled_orStop fun _ _ => trivial) fun _ _ => ?_
  refine Fueled.bind (Q := fun _ => True) (fueled_orStop fun _ _ => trivial) fun _ _ => ?_
  exact (fueled_pop hv h 2).bind fun _ h => h

theorem fueled_square (hv : Views src V) {neg : Bool} {f : D} {n : Nat} {s s1 : σ}
    {p : PProblem} {ts : List Token} (h : V s1 ts) :
    Fueled (fun r => Less V ts r.1) (quadSquare src neg f n s s1 p) := by
  unfold quadSquare
  refine (fueled_pop hv h _).bind fun s2 h2 => ?_
  exact Fueled.bind (Q := fun _ => True) (fueled_orStop fun _ _ => trivial) fun _ _ => h2

theorem Less.trans_left {ts us : List Token} {s : σ} (h : Left V us s) (hu : us <:+ ts) :
    Left V ts s := by
  obtain ⟨vs, h1, h2⟩ := h
  exact ⟨vs, h1, h2.trans hu⟩

theorem fueled_quadLoop (hv : Views src V) {neg : Bool} : ∀ (k : Nat) {s : σ} {ts : List Token}
    {p : PProblem}, V s ts → ts.length < k →
    Fueled (fun r => Left V ts r.1) (quadLoop src scan neg k s p) := by
  intro k
  induction k with
  | zero => intro s ts p _ h; omega
  | succ k ih =>
    intro s ts p h hk
    have ih' : ∀ {s1 : σ} {us : List Token} {p : PProblem}, V s1 us → us <:+ ts →
        us.length < ts.length → Fueled (fun r => Left V ts r.1) (quadLoop src scan neg k s1 p) :=
      fun h1 h2 h3 => fueled_mono (ih h1 (by omega)) fun _ h => Less.trans_left h h2
    unfold quadLoop
    split
    · exact ⟨ts, h, List.suffix_refl _⟩
    · rename_i hc
      have hne : ts ≠ [] := by
        rintro rfl
        rw [hv.tok h (by omega)] at hc
        simp at hc
      refine fueled_quad.bind fun e _ => ?_
      refine Fueled.bind (Q := fun _ => True) (fueled_orStop fun _ _ => trivial) fun r _ => ?_
      refine (fueled_pop hv h _).bind fun s1 h1 => ?_
      obtain ⟨us, h1, h2, h3⟩ := h1
      have h3 : us.length < ts.length := by
        rcases h3 with h3 | ⟨h3, -⟩
        · exact h3
        · exact absurd h3 hne
      split
      · refine (fueled_product hv h1).bind fun r hr => ?_
        obtain ⟨vs, g1, g2, -⟩ := hr
        exact ih' g1 (g2.trans h2) (lt_of_le_of_lt g2.length_le h3)
      · split
        · refine (fueled_square hv h1).bind fun r hr => ?_
          obtain ⟨vs, g1, g2, -⟩ := hr
          exact ih' g1 (g2.trans h2) (lt_of_le_of_lt g2.length_le h3)
        · exact ih' h1 h2 h3

theorem fueled_quadEnd (hv : Views src V) {s : σ} {ts : List Token} (h : V s ts) :
    Fueled (Left V ts) (quadEnd src s) := by
  unfold quadEnd
  refine (fueled_pop hv h 1).bind fun s1 h1 => ?_
  obtain ⟨us, h1, h2, -⟩ := h1
  split
  · exact fueled_mono (fueled_pop hv h1 2) fun _ h => Less.trans_left h.left h2
  · split
    · exact fueled_mono (fueled_pop hv h1 1) fun _ h => Less.trans_left h.left h2
    · intro hc; cases hc

theorem fueled_readQuadratic (hv : Views src V) {neg : Bool} {k : Nat} {s : σ} {ts : List Token}
    {p : PProblem} (h : V s ts) (hk : ts.length ≤ k) :
    Fueled (fun r => Left V ts r.1 ∧ (ts ≠ [] → Less V ts r.1))
      (readQuadratic src scan k neg s p) := by
  unfold readQuadratic
  split
  · intro hc; cases hc
  · rename_i h0
    have hne : ts ≠ [] := by
      rintro rfl
      rw [hv.tok h (by omega)] at h0
      simp at h0
    refine (fueled_pop hv h 1).bind fun s1 h1 => ?_
    obtain ⟨us, h1, h2, h3⟩ := h1
    have h3 : us.length < ts.length := by
      rcases h3 with h3 | ⟨h3, -⟩
      · exact h3
      · exact absurd h3 hne
    refine (fueled_quadLoop hv k h1 (by omega)).bind fun r hr => ?_
    obtain ⟨vs, g1, g2⟩ := hr
    refine (fueled_quadEnd hv g1).bind fun s3 h3' => ?_
    obtain ⟨ws, k1, k2⟩ := h3'
    exact ⟨⟨ws, k1, (k2.trans g2).trans h2⟩, fun _ => ⟨ws, k1, (k2.trans g2).trans h2,
      .inl (lt_of_le_of_lt (k2.trans g2).length_le h3)⟩⟩

theorem fueled_objQuadratic (hv : Views src V) {k : Nat} {s : σ} {ts : List Token}
    {p : PProblem} (h : V s ts) (hne : ts ≠ []) (hk : ts.length ≤ k) :
    Fueled (fun r => Less V ts r.1) (objQuadratic src scan k s p) := by
  have aux : ∀ neg : Bool, Fueled (fun r => Less V ts r.1)
      (popFront src s 1 >>= fun s1 => readQuadratic src scan k neg s1 p) := by
    intro neg
    refine (fueled_pop hv h 1).bind fun s1 h1 => ?_
    obtain ⟨us, h1, h2, h3⟩ := h1
    have h3 : us.length < ts.length := by
      rcases h3 with h3 | ⟨h3, -⟩
      · exact h3
      · exact absurd h3 hne
    refine fueled_mono (fueled_readQuadratic hv h1 (by omega)) fun r hr => ?_
    obtain ⟨⟨vs, g1, g2⟩, -⟩ := hr
    exact ⟨vs, g1, g2.trans h2, .inl (lt_of_le_of_lt g2.length_le h3)⟩
  unfold objQuadratic
  split
  · exact aux true
  · split
    · exact aux false
    · exact fueled_mono (fueled_readQuadratic hv h hk) fun r hr => hr.2 hne

theorem fueled_objElem (hv : Views src V) {s : σ} {ts : List Token} {p : PProblem} (h : V s ts) :
    Fueled (fun r => Less V ts r.1) (objElem src scan s p) := by
  unfold objElem
  refine fueled_elem.bind fun e _ => ?_
  refine Fueled.bind (Q := fun _ => True) (fueled_orStop fun _ _ => trivial) fun r _ => ?_
  refine Fueled.bind (Q := fun _ => True) (fueled_orStop fun _ _ => trivial) fun p1 _ => ?_
  exact (fueled_pop hv h _).bind fun _ h => h

/-- At the end of the file, the objective is an error. -/
theorem objElem_nil (hs : scan [] = none) (hv : Views src V) {s : σ} {p : PProblem} (h : V s []) :
    Fueled (fun _ => False) (objElem src scan s p) := by
  unfold objElem
  rw [hv.tok h (by omega), hv.tok h (by omega), hv.tok h (by omega)]
  have : readElem scan [] [] [] = .ok (some (.fin 1, [], 0)) := by
    unfold readElem readReal2 readReal
    rw [hs]
    rfl
  simp only [List.getD_nil, this, pm_ok_bind, orStop, PProblem.appendObjective, popFront]
  intro hc; cases hc

theorem fueled_objLoop (hs : scan [] = none) (hv : Views src V) : ∀ (k : Nat) {s : σ}
    {ts : List Token} {p : PProblem}, V s ts → ts.length < k →
    Fueled (fun r => Left V ts r.1) (objLoop src scan k s p) := by
  intro k
  induction k with
  | zero => intro s ts p _ h; omega
  | succ k ih =>
    intro s ts p h hk
    unfold objLoop
    split
    · exact ⟨ts, h, List.suffix_refl _⟩
    · have step : ∀ {x : PM (σ × PProblem)}, ts ≠ [] → Fueled (fun r => Less V ts r.1) x →
          Fueled (fun r => Left V ts r.1) (x >>= fun r => objLoop src scan k r.1 r.2) := by
        intro x hne hx
        refine hx.bind fun r hr => ?_
        obtain ⟨us, h1, h2, h3⟩ := hr
        have h3 : us.length < ts.length := by
          rcases h3 with h3 | ⟨h3, -⟩
          · exact h3
          · exact absurd h3 hne
        exact fueled_mono (ih h1 (by omega)) fun _ h => Less.trans_left h h2
      split
      · rename_i hq
        have hne : ts ≠ [] := by
          rintro rfl
          rw [hv.tok h (by omega), hv.tok h (by omega)] at hq
          simp [startsWithQuadratic] at hq
        exact step hne (fueled_objQuadratic hv h hne (by omega))
      · by_cases hne : ts = []
        · subst hne
          exact (objElem_nil hs hv h).bind fun _ h => h.elim
        · exact step hne (fueled_objElem hv h)

theorem fueled_constrElem (hv : Views src V) {s : σ} {ts : List Token} {p : PProblem}
    {es : List FunElem} (h : V s ts) :
    Fueled (fun r => Less V ts r.1) (constrElem src scan s p es) := by
  unfold constrElem
  refine fueled_elem.bind fun e _ => ?_
  refine Fueled.bind (Q := fun _ => True) (fueled_orStop fun _ _ => trivial) fun r _ => ?_
  refine Fueled.bind (Q := fun _ => True) (fueled_orStop fun _ _ => trivial) fun p1 _ => ?_
  refine fueled_toInt.bind fun v _ => (fueled_addFun es).bind fun es1 _ => ?_
  exact (fueled_pop hv h _).bind fun _ h => h

theorem fueled_elemLoop (hv : Views src V) : ∀ (k : Nat) {s : σ} {ts : List Token}
    {p : PProblem} {es : List FunElem}, V s ts → ts.length < k →
    Fueled (fun r => Left V ts r.1) (elemLoop src scan k s p es) := by
  intro k
  induction k with
  | zero => intro s ts p es _ h; omega
  | succ k ih =>
    intro s ts p es h hk
    unfold elemLoop
    split
    · exact ⟨ts, h, List.suffix_refl _⟩
    · rename_i hc
      have hne : ts ≠ [] := by
        rintro rfl
        rw [hv.tok h (by omega)] at hc
        simp at hc
      refine (fueled_constrElem hv h).bind fun r hr => ?_
      obtain ⟨us, h1, h2, h3⟩ := hr
      have h3 : us.length < ts.length := by
        rcases h3 with h3 | ⟨h3, -⟩
        · exact h3
        · exact absurd h3 hne
      exact fueled_mono (ih h1 (by omega)) fun _ h => Less.trans_left h h2

theorem fueled_constrEnd (hv : Views src V) {s : σ} {ts : List Token} (h : V s ts) :
    Fueled (fun r => Less V ts r.1) (constrEnd src scan s) := by
  unfold constrEnd
  refine Fueled.bind (Q := fun _ => True) (fueled_orStop fun _ _ => trivial) fun r _ => ?_
  refine (fueled_pop hv h _).bind fun s1 h1 => ?_
  obtain ⟨us, h1, h2, h3⟩ := h1
  refine fueled_real2.bind fun r _ => fueled_toInt.bind fun v _ => ?_
  refine (fueled_pop hv h1 _).bind fun s2 hs2 => ?_
  obtain ⟨vs, g1, g2, g3⟩ := hs2
  refine ⟨vs, g1, g2.trans h2, ?_⟩
  rcases h3 with h3 | ⟨h3, h4⟩
  · exact .inl (lt_of_le_of_lt g2.length_le h3)
  · subst h4
    exact .inr ⟨h3, List.suffix_nil.mp g2⟩

theorem fueled_constrLabel (hv : Views src V) {s : σ} {ts : List Token} (h : V s ts) :
    Fueled (fun r => Left V ts r.1) (constrLabel src s) := by
  unfold constrLabel
  split
  · exact (fueled_pop hv h 2).bind fun _ h => h.left
  · exact ⟨ts, h, List.suffix_refl _⟩

theorem fueled_constrLoop (hv : Views src V) : ∀ (k id : Nat) {s : σ} {ts : List Token}
    {p : PProblem}, V s ts → ts.length < k →
    Fueled (fun r => Left V ts r.1) (constrLoop src scan k id s p) := by
  intro k
  induction k with
  | zero => intro id s ts p _ h; omega
  | succ k ih =>
    intro id s ts p h hk
    unfold constrLoop
    split
    · exact ⟨ts, h, List.suffix_refl _⟩
    · rename_i hc
      have hne : ts ≠ [] := by
        rintro rfl
        rw [hv.tok h (by omega)] at hc
        simp at hc
      refine (fueled_constrLabel hv h).bind fun r hr => ?_
      obtain ⟨t1, a1, a2⟩ := hr
      refine (fueled_constrElem hv a1).bind fun r hr => ?_
      obtain ⟨t2, b1, b2, b3⟩ := hr
      have hb : t2.length < ts.length := by
        rcases b3 with b3 | ⟨b3, b4⟩
        · exact lt_of_lt_of_le b3 a2.length_le
        · subst b4
          exact List.length_pos_iff.mpr hne
      have hb' := b2.trans a2
      refine (fueled_elemLoop hv k b1 (by omega)).bind fun r hr => ?_
      obtain ⟨t3, c1, c2⟩ := hr
      refine (fueled_constrEnd hv c1).bind fun r hr => ?_
      obtain ⟨t4, d1, d2, -⟩ := hr
      have hd := (d2.trans c2).trans hb'
      have hl : t4.length < ts.length := lt_of_le_of_lt (d2.trans c2).length_le hb
      exact fueled_mono (ih (id + 1) d1 (by omega)) fun _ h => Less.trans_left h hd

theorem fueled_readConstraints (hv : Views src V) {k : Nat} {s : σ} {ts : List Token}
    {p : PProblem} (h : V s ts) (hk : ts.length < k) :
    Fueled (fun r => Left V ts r.1) (readConstraints src scan k s p) := by
  unfold readConstraints
  split
  · exact ⟨ts, h, List.suffix_refl _⟩
  · refine (fueled_pop hv h _).bind fun s1 h1 => ?_
    obtain ⟨us, h1, h2, -⟩ := h1
    have := h2.length_le
    refine (fueled_constrLoop hv k 0 h1 (by omega)).bind fun r hr => ?_
    simp only
    split
    · intro hc; cases hc
    · exact Less.trans_left hr h2

/-- At the end of the file, a bound is an error. -/
theorem readBound_nil (hv : Views src V) {s : σ} (h : V s []) :
    readBound scan (src.tok s) = .ok none := by
  unfold readBound
  rw [hv.tok h (by omega)]
  rfl

theorem fueled_boundLoop (hv : Views src V) : ∀ (k : Nat) {s : σ} {ts : List Token}
    {p : PProblem}, V s ts → ts.length < k →
    Fueled (fun r => Left V ts r.1) (boundLoop src scan k s p) := by
  intro k
  induction k with
  | zero => intro s ts p _ h; omega
  | succ k ih =>
    intro s ts p h hk
    unfold boundLoop
    split
    · exact ⟨ts, h, List.suffix_refl _⟩
    · by_cases hne : ts = []
      · subst hne
        rw [readBound_nil hv h]
        intro hc; cases hc
      · refine fueled_bound.bind fun b _ => ?_
        refine Fueled.bind (Q := fun _ => True) (fueled_orStop fun _ _ => trivial) fun b _ => ?_
        refine fueled_setBound.bind fun p1 _ => ?_
        refine Fueled.bind (Q := fun _ => True) (fueled_orStop fun _ _ => trivial) fun p1 _ => ?_
        refine (fueled_pop hv h _).bind fun s1 h1 => ?_
        obtain ⟨us, h1, h2, h3⟩ := h1
        have h3 : us.length < ts.length := by
          rcases h3 with h3 | ⟨h3, -⟩
          · exact h3
          · exact absurd h3 hne
        exact fueled_mono (ih h1 (by omega)) fun _ h => Less.trans_left h h2

theorem fueled_readBounds (hv : Views src V) {k : Nat} {s : σ} {ts : List Token}
    {p : PProblem} (h : V s ts) (hk : ts.length < k) :
    Fueled (fun r => Left V ts r.1) (readBounds src scan k s p) := by
  unfold readBounds
  split
  · exact ⟨ts, h, List.suffix_refl _⟩
  · refine (fueled_pop hv h _).bind fun s1 h1 => ?_
    obtain ⟨us, h1, h2, -⟩ := h1
    have := h2.length_le
    exact fueled_mono (fueled_boundLoop hv k h1 (by omega)) fun _ h => Less.trans_left h h2

/-- The tokens that are left end with `end`, or there is none. -/
def Ends (ts : List Token) : Prop := ts = [] ∨ ∃ us t, ts = us ++ [t] ∧ SameWord t "end".toList

theorem Ends.suffix {ts us : List Token} (h : Ends ts) (hu : us <:+ ts) : Ends us := by
  rcases h with rfl | ⟨vs, t, rfl, ht⟩
  · exact .inl (List.suffix_nil.mp hu)
  · by_cases hne : us = []
    · exact .inl hne
    · right
      obtain ⟨ys, y, rfl⟩ := List.eq_nil_or_concat us |>.resolve_left hne
      obtain ⟨zs, hz⟩ := hu
      rw [List.concat_eq_append, ← List.append_assoc] at hz
      obtain ⟨-, h2⟩ := List.append_inj' hz rfl
      simp only [List.cons.injEq, and_true] at h2
      subst h2
      exact ⟨ys, y, by rw [List.concat_eq_append], ht⟩

theorem fueled_typeLoop (hv : Views src V) {set : PProblem → Token → Option PProblem} {tag : Tag} :
    ∀ (k : Nat) {s : σ} {ts : List Token} {p : PProblem}, V s ts → ts ≠ [] → Ends ts →
    ts.length < k → Fueled (fun r => Left V ts r.1) (typeLoop src set tag k s p) := by
  intro k
  induction k with
  | zero => intro s ts p _ _ _ h; omega
  | succ k ih =>
    intro s ts p h hne he hk
    unfold typeLoop
    split
    · exact ⟨ts, h, List.suffix_refl _⟩
    · rename_i hc
      refine Fueled.bind (Q := fun _ => True) (fueled_orStop fun _ _ => trivial) fun p1 _ => ?_
      match ts, hne, he with
      | [t], _, he =>
        rcases he with he | ⟨us, u, e, hu⟩
        · cases he
        · have : us = [] := by
            have := congrArg List.length e
            simp only [List.length_cons, List.length_nil, List.length_append] at this
            exact List.length_eq_zero_iff.mp (by omega)
          subst this
          simp only [List.nil_append, List.cons.injEq, and_true] at e
          subst e
          rw [hv.tok h (by omega), List.getD_cons_zero,
            isKeyword_congr (sameWord_iff.mp hu)] at hc
          exact absurd (by decide) hc
      | a :: b :: r, _, he =>
        have hp : V (src.pop s 1) (b :: r) := hv.pop h (by omega) (by omega)
        show Fueled _ (typeLoop src set tag k (src.pop s 1) p1)
        simp only [List.length_cons] at hk
        exact fueled_mono (ih hp (by simp) (he.suffix ⟨[a], rfl⟩)
          (by simp only [List.length_cons]; omega)) fun _ h => Less.trans_left h ⟨[a], rfl⟩

theorem section_left {ws : List Token}
    (hws : ∀ w ∈ ws, areEqual "end".toList w = false ∧ w ≠ [])
    {ts : List Token} (he : Ends ts) (h0 : readSection ws (ts.getD 0 []) (ts.getD 1 []) ≠ 0) :
    ts.drop (readSection ws (ts.getD 0 []) (ts.getD 1 [])) ≠ [] ∧
      1 ≤ readSection ws (ts.getD 0 []) (ts.getD 1 []) ∧
      readSection ws (ts.getD 0 []) (ts.getD 1 []) < 10 := by
  unfold readSection at h0 ⊢
  split at h0
  · rename_i ha
    rw [if_pos ha]
    rw [List.any_eq_true] at ha
    obtain ⟨w, hw, ha⟩ := ha
    have hne : ∀ t, SameWord t "end".toList → areEqual t w = false := fun t ht => by
      rw [areEqual_congr (sameWord_iff.mp ht)]; exact (hws w hw).1
    rcases he with rfl | ⟨us, t, rfl, ht⟩
    · have := areEqual_length ha
      simp only [List.getD_nil, List.length_nil] at this
      exact absurd (List.length_eq_zero_iff.mp this.symm) (hws w hw).2
    · match us with
      | [] =>
        rw [List.nil_append, List.getD_cons_zero, hne t ht] at ha
        cases ha
      | [a] =>
        have : areEqual (([a] ++ [t]).getD 1 []) [':'] = false := by
          show areEqual t [':'] = false
          rw [areEqual_congr (sameWord_iff.mp ht)]
          decide
        rw [this]
        simp
      | a :: b :: r =>
        split
        · simp
        · simp
  · exact absurd rfl h0

theorem fueled_types (hv : Views src V) {ws : List Token}
    (hws : ∀ w ∈ ws, areEqual "end".toList w = false ∧ w ≠ [])
    {set : PProblem → Token → Option PProblem} {tag : Tag} {k : Nat} {s : σ} {ts : List Token}
    {p : PProblem} (h : V s ts) (he : Ends ts) (hk : ts.length < k) :
    Fueled (fun r => Left V ts r.1)
      (if readSection ws (src.tok s 0) (src.tok s 1) = 0 then .ok (s, p)
        else popFront src s (readSection ws (src.tok s 0) (src.tok s 1)) >>= fun s1 =>
          typeLoop src set tag k s1 p) := by
  rw [hv.tok h (by omega), hv.tok h (by omega)]
  split
  · exact ⟨ts, h, List.suffix_refl _⟩
  · rename_i h0
    obtain ⟨h1, h2, h3⟩ := section_left hws he h0
    unfold popFront
    rw [if_pos ⟨h2, h3⟩]
    have hs := List.drop_suffix (readSection ws (ts.getD 0 []) (ts.getD 1 [])) ts
    have := hs.length_le
    exact fueled_mono (fueled_typeLoop hv k (hv.pop h h2 h3) h1 (he.suffix hs) (by omega))
      fun _ h => Less.trans_left h hs

theorem fueled_readEnd {s : σ} : Fueled (fun _ => True) (readEnd src s) := by
  unfold readEnd
  split
  · intro hc; cases hc
  · unfold popFront
    split
    · simp only [pm_ok_bind]
      split
      · trivial
      · intro hc; cases hc
    · intro hc; cases hc

theorem fueled_readHead (hv : Views src V) {s : σ} {ts : List Token} {p : PProblem} (h : V s ts) :
    Fueled (fun r => Left V ts r.1) (readHead src s p) := by
  unfold readHead
  refine Fueled.bind (Q := fun _ => True) (fueled_orStop fun _ _ => trivial) fun _ _ => ?_
  refine (fueled_pop hv h 1).bind fun s1 h1 => ?_
  split
  · exact h1.left
  · obtain ⟨us, h1, h2, -⟩ := h1
    exact (fueled_pop hv h1 _).bind fun _ h => Less.trans_left h.left h2

theorem parse_fuel (hs : scan [] = none) (hv : Views src V) {k : Nat} {s : σ} {ts : List Token}
    (h : V s ts) (he : Ends ts) (hk : ts.length < k) :
    Fueled (fun _ => True) (parse src scan k s) := by
  rw [parse_eq]
  refine (fueled_readHead hv h).bind fun r hr => ?_
  obtain ⟨t1, a1, a2⟩ := hr
  have := a2.length_le
  refine (fueled_objLoop hs hv k a1 (by omega)).bind fun r hr => ?_
  obtain ⟨t2, b1, b2⟩ := hr
  replace b2 := b2.trans a2
  have := b2.length_le
  unfold parseTail
  refine (fueled_readConstraints hv b1 (by omega)).bind fun r hr => ?_
  obtain ⟨t3, c1, c2⟩ := hr
  replace c2 := c2.trans b2
  have := c2.length_le
  refine (fueled_readBounds hv c1 (by omega)).bind fun r hr => ?_
  obtain ⟨t4, d1, d2⟩ := hr
  replace d2 := d2.trans c2
  have := d2.length_le
  refine (fueled_types (ws := binaryWords) hv (by decide) d1 (he.suffix d2) (by omega)).bind
    fun r hr => ?_
  obtain ⟨t5, e1, e2⟩ := hr
  replace e2 := e2.trans d2
  have := e2.length_le
  refine (fueled_types (ws := generalWords) hv (by decide) e1 (he.suffix e2) (by omega)).bind
    fun r hr => ?_
  exact fueled_readEnd.bind fun _ _ => trivial

theorem parse_ne_fuel (hs : scan [] = none) (hv : Views src V) {k : Nat} {s : σ} {ts : List Token}
    (h : V s ts) (he : Ends ts) (hk : ts.length < k) :
    parse src scan k s ≠ .error (.fault .fuel) := by
  have := parse_fuel hs hv h he hk
  intro hc
  rw [hc] at this
  exact this rfl

end

/-- With a variable without a name, the section of the binary variables never ends at the end
of the text. -/
theorem typeLoop_forever (tag : Tag) : ∀ (k : Nat) (p : PProblem), [] ∈ p.names →
    typeLoop listSource PProblem.setBoolean tag k [] p = .error (.fault .fuel) := by
  intro k
  induction k with
  | zero => intro p _; rfl
  | succ k ih =>
    intro p hp
    unfold typeLoop
    have h1 : isKeyword (listSource.tok [] 0) = false := by decide
    rw [if_neg (by rw [h1]; simp)]
    have h2 : ∃ q, p.setBoolean (listSource.tok [] 0) = some q := by
      unfold PProblem.setBoolean
      cases hv : p.getVariable (listSource.tok [] 0) with
      | none => exact absurd hp (getVariable_none hv)
      | some i => exact ⟨_, rfl⟩
    obtain ⟨q, hq⟩ := h2
    rw [hq]
    have := ih q (by rw [setBoolean_names _ _ _ hq]; exact hp)
    exact this

end Bx.Parser
