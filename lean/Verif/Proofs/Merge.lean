import Verif.Model.Merge
import Verif.Model.ProblemType
import Verif.Proofs.Outcome
import Verif.Spec.Lp
import Mathlib.Tactic.Linarith
import Mathlib.Algebra.Order.Group.Int
import Mathlib.Data.List.Perm.Basic
import Mathlib.Algebra.BigOperators.Group.List.Basic

/-! Helper lemmas for the merge of constraints. -/

namespace Bx.Merge

open Spec

/-- `x` is within the bounds of a merged constraint. -/
def satM (x : Assign) (m : Merged) : Prop :=
  m.min ≤ lhs x m.elems ∧ lhs x m.elems ≤ m.max

theorem lhs_perm {x : Assign} {a b : List FunElem} (h : a.Perm b) : lhs x a = lhs x b := by
  unfold lhs
  exact (h.map _).sum_eq

/-- What `update` does, seen from the entries. -/
theorem update_spec {e : List FunElem} {f : Merged → Outcome Merged} {new : Merged}
    (hnew : new.elems = e) (hf : ∀ m m', f m = .ok m' → m'.elems = m.elems) :
    ∀ {ret ret' : List Merged}, update e f new ret = .ok ret' →
      (∃ pre m post m', ret = pre ++ m :: post ∧ m.elems = e ∧ f m = .ok m' ∧
        ret' = pre ++ m' :: post) ∨
      ((∀ m ∈ ret, m.elems ≠ e) ∧ ret' = ret ++ [new])
  | [], ret', h => by
    simp only [update, Except.ok.injEq] at h
    exact Or.inr ⟨by simp, by simp [← h]⟩
  | m :: ms, ret', h => by
    unfold update at h
    split at h
    · rename_i he
      obtain ⟨m', h1, h2⟩ := bind_eq_ok.mp h
      simp only [Except.ok.injEq] at h2
      exact Or.inl ⟨[], m, ms, m', rfl, he, h1, h2.symm⟩
    · rename_i he
      obtain ⟨ms', h1, h2⟩ := bind_eq_ok.mp h
      simp only [Except.ok.injEq] at h2
      rcases update_spec hnew hf h1 with ⟨pre, m0, post, m', a, b, c, d⟩ | ⟨a, b⟩
      · exact Or.inl ⟨m :: pre, m0, post, m', by simp [a], b, c, by rw [← h2, d]; rfl⟩
      · refine Or.inr ⟨?_, by rw [← h2, b]; rfl⟩
        intro m1 hm1
        rcases List.mem_cons.mp hm1 with rfl | hm1
        · exact he
        · exact a m1 hm1

theorem update_spec' {e : List FunElem} {f : Merged → Outcome Merged} {new : Merged}
    {ret ret' : List Merged} (h : update e f new ret = .ok ret')
    (hnew : new.elems = e) (hf : ∀ m m', f m = .ok m' → m'.elems = m.elems) :
      (∃ pre m post m', ret = pre ++ m :: post ∧ m.elems = e ∧ f m = .ok m' ∧
        ret' = pre ++ m' :: post) ∨
      ((∀ m ∈ ret, m.elems ≠ e) ∧ ret' = ret ++ [new]) := update_spec hnew hf h

theorem update_error {e : List FunElem} {f : Merged → Outcome Merged} {new : Merged} {x : Fault} :
    ∀ {ret : List Merged}, update e f new ret = .error x → ∃ m ∈ ret, m.elems = e ∧ f m = .error x
  | [], h => by simp [update] at h
  | m :: ms, h => by
    unfold update at h
    split at h
    · rename_i he
      cases hfm : f m with
      | ok m' => rw [hfm] at h; simp [ok_bind] at h
      | error y =>
        rw [hfm] at h
        cases h
        exact ⟨m, by simp, he, hfm⟩
    · cases hu : update e f new ms with
      | ok m' => rw [hu] at h; simp [ok_bind] at h
      | error y =>
        rw [hu] at h
        cases h
        obtain ⟨m1, a, b⟩ := update_error hu
        exact ⟨m1, by simp [a], b⟩

/-- The three steps, uniformly. -/
structure StepSpec (P : Constr → Assign → Prop) (step : List Merged → Constr → Outcome (List Merged)) :
    Prop where
  ok : ∀ ret c ret', step ret c = .ok ret' →
    (∃ pre m post m', ret = pre ++ m :: post ∧ m.elems = c.elems ∧ m'.elems = m.elems ∧
      m.min ≤ m'.min ∧ m'.max ≤ m.max ∧ (∀ x, satM x m' ↔ satM x m ∧ P c x) ∧
      ret' = pre ++ m' :: post) ∨
    ((∀ m ∈ ret, m.elems ≠ c.elems) ∧
      ∃ new, new.elems = c.elems ∧ ret' = ret ++ [new] ∧
      ((∀ x, intMin ≤ lhs x c.elems ∧ lhs x c.elems ≤ intMax) → ∀ x, satM x new ↔ P c x))
  err : ∀ ret c f, step ret c = .error f → f = .exn "multiple_constraint" ∧
    ∃ m ∈ ret, ∀ x, ¬ (satM x m ∧ P c x)

def sat : Op → Constr → Assign → Prop
  | .equal, c, x => lhs x c.elems = c.value
  | .greater, c, x => lhs x c.elems ≥ c.value
  | .less, c, x => lhs x c.elems ≤ c.value

def stepOf : Op → List Merged → Constr → Outcome (List Merged)
  | .equal => stepEqual
  | .less => stepLess
  | .greater => stepGreater

def cstsOf (pb : Problem) : Op → List Constr
  | .equal => pb.eqs
  | .less => pb.les
  | .greater => pb.ges

theorem fill_eq (pb : Problem) (ret : List Merged) (op : Op) :
    fill pb ret op = (cstsOf pb op).foldlM (stepOf op) ret := by
  cases op <;> rfl

theorem step_spec (op : Op) : StepSpec (sat op) (stepOf op) := by
  cases op
  · constructor
    · intro ret c ret' h
      simp only [stepOf, stepEqual] at h
      rcases update_spec' h rfl (by
        intro m m' hm
        split at hm
        · cases hm; rfl
        · cases hm) with ⟨pre, m, post, m', h1, h2, h3, h4⟩ | ⟨h1, h2⟩
      · split at h3
        · rename_i hb
          cases h3
          refine Or.inl ⟨pre, m, post, { m with min := c.value, max := c.value }, h1, h2, rfl,
            hb.1, hb.2, ?_, h4⟩
          intro x
          simp only [satM, sat, ← h2]
          constructor
          · rintro ⟨a, b⟩; refine ⟨⟨?_, ?_⟩, ?_⟩ <;> omega
          · rintro ⟨a, b⟩; omega
        · cases h3
      · refine Or.inr ⟨h1, _, rfl, h2, fun _ x => ?_⟩
        simp only [satM, sat]
        omega
    · intro ret c f h
      obtain ⟨m, h1, h2, h3⟩ := update_error h
      split at h3
      · cases h3
      · rename_i hb
        cases h3
        refine ⟨rfl, m, h1, ?_⟩
        rintro x ⟨⟨a, b⟩, d⟩
        simp only [sat] at d
        rw [h2] at a b
        exact hb ⟨by omega, by omega⟩
  · constructor
    · intro ret c ret' h
      simp only [stepOf, stepLess, stepGreater] at h
      rcases update_spec' h rfl (by intro m m' hm; cases hm; rfl) with
        ⟨pre, m, post, m', h1, h2, h3, h4⟩ | ⟨h1, h2⟩
      · cases h3
        refine Or.inl ⟨pre, m, post, { m with min := max m.min c.value }, h1, h2, rfl, by simp, by simp, ?_, h4⟩
        intro x
        simp only [satM, sat, ← h2]
        constructor
        · rintro ⟨a, b⟩; refine ⟨⟨?_, ?_⟩, ?_⟩ <;> omega
        · rintro ⟨⟨a, b⟩, d⟩; omega
      · refine Or.inr ⟨h1, _, rfl, h2, fun hb x => ?_⟩
        have := hb x
        simp only [satM, sat]
        omega
    · intro ret c f h
      obtain ⟨m, h1, h2, h3⟩ := update_error h
      cases h3
  · constructor
    · intro ret c ret' h
      simp only [stepOf, stepLess, stepGreater] at h
      rcases update_spec' h rfl (by intro m m' hm; cases hm; rfl) with
        ⟨pre, m, post, m', h1, h2, h3, h4⟩ | ⟨h1, h2⟩
      · cases h3
        refine Or.inl ⟨pre, m, post, { m with max := min m.max c.value }, h1, h2, rfl, by simp, by simp, ?_, h4⟩
        intro x
        simp only [satM, sat, ← h2]
        constructor
        · rintro ⟨a, b⟩; refine ⟨⟨?_, ?_⟩, ?_⟩ <;> omega
        · rintro ⟨⟨a, b⟩, d⟩; omega
      · refine Or.inr ⟨h1, _, rfl, h2, fun hb x => ?_⟩
        have := hb x
        simp only [satM, sat]
        omega
    · intro ret c f h
      obtain ⟨m, h1, h2, h3⟩ := update_error h
      cases h3

/-- Sums of the constraint fit in an `int`. -/
def Fits (c : Constr) : Prop := ∀ x, intMin ≤ lhs x c.elems ∧ lhs x c.elems ≤ intMax

theorem StepSpec.sat_iff {P : Constr → Assign → Prop}
    {step : List Merged → Constr → Outcome (List Merged)} (hs : StepSpec P step)
    {ret ret' : List Merged} {c : Constr} (hc : Fits c) (h : step ret c = .ok ret') (x : Assign) :
    (∀ m ∈ ret', satM x m) ↔ (∀ m ∈ ret, satM x m) ∧ P c x := by
  rcases hs.ok _ _ _ h with ⟨pre, m, post, m', rfl, _, _, _, _, h5, rfl⟩ | ⟨_, new, _, rfl, h3⟩
  · simp only [List.forall_mem_append, List.forall_mem_cons, h5 x]
    tauto
  · simp only [List.forall_mem_append, List.forall_mem_singleton, h3 hc x]

theorem foldl_sat {P : Constr → Assign → Prop}
    {step : List Merged → Constr → Outcome (List Merged)} (hs : StepSpec P step) (x : Assign) :
    ∀ (cs : List Constr) (ret ret' : List Merged), (∀ c ∈ cs, Fits c) →
      cs.foldlM step ret = .ok ret' →
      ((∀ m ∈ ret', satM x m) ↔ (∀ m ∈ ret, satM x m) ∧ ∀ c ∈ cs, P c x)
  | [], ret, ret', _, h => by
    simp only [List.foldlM_nil, pure_eq_ok, Except.ok.injEq] at h
    subst h; simp
  | c :: cs, ret, ret', hc, h => by
    rw [List.foldlM_cons] at h
    obtain ⟨r1, h1, h2⟩ := bind_eq_ok.mp h
    rw [foldl_sat hs x cs r1 ret' (fun c' h' => hc c' (by simp [h'])) h2,
      hs.sat_iff (hc c (by simp)) h1]
    simp only [List.forall_mem_cons]
    tauto

theorem foldl_err {P : Constr → Assign → Prop}
    {step : List Merged → Constr → Outcome (List Merged)} (hs : StepSpec P step) {f : Fault} :
    ∀ (cs : List Constr) (ret : List Merged), (∀ c ∈ cs, Fits c) →
      cs.foldlM step ret = .error f → f = .exn "multiple_constraint" ∧
      ∀ x, ¬ ((∀ m ∈ ret, satM x m) ∧ ∀ c ∈ cs, P c x)
  | [], ret, _, h => by simp [pure_eq_ok] at h
  | c :: cs, ret, hc, h => by
    rw [List.foldlM_cons] at h
    cases h1 : step ret c with
    | error g =>
      rw [h1] at h
      cases h
      obtain ⟨a, m, hm, b⟩ := hs.err _ _ _ h1
      exact ⟨a, fun x hx => b x ⟨hx.1 m hm, hx.2 c (by simp)⟩⟩
    | ok r1 =>
      rw [h1, ok_bind] at h
      obtain ⟨a, b⟩ := foldl_err hs cs r1 (fun c' h' => hc c' (by simp [h'])) h
      refine ⟨a, fun x hx => b x ⟨?_, fun c' h' => hx.2 c' (by simp [h'])⟩⟩
      exact (hs.sat_iff (hc c (by simp)) h1 x).mpr ⟨hx.1, hx.2 c (by simp)⟩

/-- The entries of `ret` have distinct element vectors, each that of a
constraint. -/
theorem StepSpec.nodup {P : Constr → Assign → Prop}
    {step : List Merged → Constr → Outcome (List Merged)} (hs : StepSpec P step)
    {ret ret' : List Merged} {c : Constr} (h : step ret c = .ok ret')
    (hn : (ret.map Merged.elems).Nodup) : (ret'.map Merged.elems).Nodup := by
  rcases hs.ok _ _ _ h with ⟨pre, m, post, m', rfl, _, h3, _, _, _, rfl⟩ | ⟨h1, new, h2, rfl, _⟩
  · simpa [h3] using hn
  · rw [List.map_append, List.nodup_append]
    refine ⟨hn, by simp, ?_⟩
    intro a ha b hb
    simp only [List.map_cons, List.map_nil, List.mem_singleton] at hb
    subst hb
    obtain ⟨m, hm, rfl⟩ := List.mem_map.mp ha
    rw [h2]
    exact h1 m hm

/-- The bounds of an entry only shrink. -/
theorem StepSpec.shrink {P : Constr → Assign → Prop}
    {step : List Merged → Constr → Outcome (List Merged)} (hs : StepSpec P step)
    {ret ret' : List Merged} {c : Constr} (h : step ret c = .ok ret') {m : Merged} (hm : m ∈ ret) :
    ∃ m' ∈ ret', m'.elems = m.elems ∧ m.min ≤ m'.min ∧ m'.max ≤ m.max := by
  rcases hs.ok _ _ _ h with ⟨pre, m0, post, m', rfl, _, h3, h4, h5, _, rfl⟩ | ⟨h1, new, h2, rfl, _⟩
  · simp only [List.mem_append, List.mem_cons] at hm
    rcases hm with hm | rfl | hm
    · exact ⟨m, by simp [hm], rfl, le_refl _, le_refl _⟩
    · exact ⟨m', by simp, h3, h4, h5⟩
    · exact ⟨m, by simp [hm], rfl, le_refl _, le_refl _⟩
  · exact ⟨m, by simp [hm], rfl, le_refl _, le_refl _⟩

theorem StepSpec.length {P : Constr → Assign → Prop}
    {step : List Merged → Constr → Outcome (List Merged)} (hs : StepSpec P step)
    {ret ret' : List Merged} {c : Constr} (h : step ret c = .ok ret') :
    ret'.length ≤ ret.length + 1 := by
  rcases hs.ok _ _ _ h with ⟨pre, m, post, m', rfl, _, h3, _, _, _, rfl⟩ | ⟨h1, new, h2, rfl, _⟩
  · simp
  · simp

theorem StepSpec.elems {P : Constr → Assign → Prop}
    {step : List Merged → Constr → Outcome (List Merged)} (hs : StepSpec P step)
    {ret ret' : List Merged} {c : Constr} (h : step ret c = .ok ret') {m : Merged} (hm : m ∈ ret') :
    m.elems = c.elems ∨ ∃ m0 ∈ ret, m0.elems = m.elems := by
  rcases hs.ok _ _ _ h with ⟨pre, m0, post, m', rfl, _, h3, _, _, _, rfl⟩ | ⟨h1, new, h2, rfl, _⟩
  · simp only [List.mem_append, List.mem_cons] at hm
    rcases hm with hm | rfl | hm
    · exact Or.inr ⟨m, by simp [hm], rfl⟩
    · exact Or.inr ⟨m0, by simp, h3.symm⟩
    · exact Or.inr ⟨m, by simp [hm], rfl⟩
  · simp only [List.mem_append, List.mem_singleton] at hm
    rcases hm with hm | rfl
    · exact Or.inr ⟨m, hm, rfl⟩
    · exact Or.inl h2

/-- The invariants of a whole fill. -/
theorem foldl_inv {P : Constr → Assign → Prop}
    {step : List Merged → Constr → Outcome (List Merged)} (hs : StepSpec P step) :
    ∀ (cs : List Constr) (ret ret' : List Merged), cs.foldlM step ret = .ok ret' →
      ((ret.map Merged.elems).Nodup → (ret'.map Merged.elems).Nodup) ∧
      (∀ m ∈ ret, ∃ m' ∈ ret', m'.elems = m.elems ∧ m.min ≤ m'.min ∧ m'.max ≤ m.max) ∧
      ret'.length ≤ ret.length + cs.length ∧
      (∀ m ∈ ret', (∃ c ∈ cs, c.elems = m.elems) ∨ ∃ m0 ∈ ret, m0.elems = m.elems)
  | [], ret, ret', h => by
    simp only [List.foldlM_nil, pure_eq_ok, Except.ok.injEq] at h
    subst h
    exact ⟨id, fun m hm => ⟨m, hm, rfl, le_refl _, le_refl _⟩, by simp,
      fun m hm => Or.inr ⟨m, hm, rfl⟩⟩
  | c :: cs, ret, ret', h => by
    rw [List.foldlM_cons] at h
    obtain ⟨r1, h1, h2⟩ := bind_eq_ok.mp h
    obtain ⟨a, b, d, e⟩ := foldl_inv hs cs r1 ret' h2
    refine ⟨fun hn => a (hs.nodup h1 hn), ?_, ?_, ?_⟩
    · intro m hm
      obtain ⟨m1, q1, q2, q3, q4⟩ := hs.shrink h1 hm
      obtain ⟨m2, r1, r2, r3, r4⟩ := b m1 q1
      exact ⟨m2, r1, r2.trans q2, le_trans q3 r3, le_trans r4 q4⟩
    · have := hs.length h1
      simp only [List.length_cons]
      omega
    · intro m hm
      rcases e m hm with ⟨c', h3, h4⟩ | ⟨m0, h3, h4⟩
      · exact Or.inl ⟨c', by simp [h3], h4⟩
      · rcases hs.elems h1 h3 with h5 | ⟨m1, h5, h6⟩
        · exact Or.inl ⟨c, by simp, h5.symm.trans h4⟩
        · exact Or.inr ⟨m1, h5, h6.trans h4⟩

/-! ### Tightness: what the bounds say about each constraint -/

def Tight (op : Op) (c : Constr) (m : Merged) : Prop :=
  m.elems = c.elems ∧ (op ≠ .less → c.value ≤ m.min) ∧ (op ≠ .greater → m.max ≤ c.value)

theorem step_tight {op : Op} {ret ret' : List Merged} {c : Constr}
    (h : stepOf op ret c = .ok ret') :
    ∃ m ∈ ret', Tight op c m ∧ (op = .equal → m.min = c.value ∧ m.max = c.value) := by
  have hel : ∀ {f : Merged → Outcome Merged} {new : Merged}, new.elems = c.elems →
      (∀ m m', f m = .ok m' → m'.elems = m.elems) →
      (∀ m m', f m = .ok m' → Tight op c { m' with elems := c.elems } ∧
        (op = .equal → m'.min = c.value ∧ m'.max = c.value)) →
      (Tight op c new ∧ (op = .equal → new.min = c.value ∧ new.max = c.value)) →
      update c.elems f new ret = .ok ret' →
      ∃ m ∈ ret', Tight op c m ∧ (op = .equal → m.min = c.value ∧ m.max = c.value) := by
    intro f new h1 h2 h3 h4 h5
    rcases update_spec h1 h2 h5 with ⟨pre, m, post, m', rfl, he, hf, rfl⟩ | ⟨_, rfl⟩
    · obtain ⟨⟨_, a, b⟩, d⟩ := h3 m m' hf
      exact ⟨m', by simp, ⟨(h2 m m' hf).trans he, a, b⟩, d⟩
    · exact ⟨new, by simp, h4⟩
  cases op
  · refine hel rfl ?_ ?_ ?_ h
    · intro m m' hm
      split at hm
      · cases hm; rfl
      · cases hm
    · intro m m' hm
      split at hm
      · cases hm; exact ⟨⟨rfl, by simp, by simp⟩, by simp⟩
      · cases hm
    · exact ⟨⟨rfl, by simp, by simp⟩, by simp⟩
  · refine hel rfl ?_ ?_ ?_ h
    · intro m m' hm; cases hm; rfl
    · intro m m' hm; cases hm; exact ⟨⟨rfl, by simp, by simp⟩, by simp⟩
    · exact ⟨⟨rfl, by simp, by simp⟩, by simp⟩
  · refine hel rfl ?_ ?_ ?_ h
    · intro m m' hm; cases hm; rfl
    · intro m m' hm; cases hm; exact ⟨⟨rfl, by simp, by simp⟩, by simp⟩
    · exact ⟨⟨rfl, by simp, by simp⟩, by simp⟩

/-- An entry that is a point stays where it is when an equality is merged. -/
theorem stepEqual_point {ret ret' : List Merged} {c : Constr} (h : stepEqual ret c = .ok ret')
    {m : Merged} (hm : m ∈ ret) {v : Int} (h1 : m.min = v) (h2 : m.max = v) :
    ∃ m' ∈ ret', m'.elems = m.elems ∧ m'.min = v ∧ m'.max = v := by
  simp only [stepEqual] at h
  rcases update_spec' h rfl (by
      intro m m' hm
      split at hm
      · cases hm; rfl
      · cases hm) with ⟨pre, m0, post, m', rfl, he, hf, rfl⟩ | ⟨_, rfl⟩
  · simp only [List.mem_append, List.mem_cons] at hm
    split at hf
    · rename_i hb
      cases hf
      rcases hm with hm | rfl | hm
      · exact ⟨m, by simp [hm], rfl, h1, h2⟩
      · exact ⟨{ m with min := c.value, max := c.value }, by simp, rfl,
          by simp only; omega, by simp only; omega⟩
      · exact ⟨m, by simp [hm], rfl, h1, h2⟩
    · cases hf
  · exact ⟨m, by simp [hm], rfl, h1, h2⟩

theorem foldl_point : ∀ (cs : List Constr) (ret ret' : List Merged),
    cs.foldlM stepEqual ret = .ok ret' →
    (∀ m ∈ ret, ∀ v, m.min = v → m.max = v →
      ∃ m' ∈ ret', m'.elems = m.elems ∧ m'.min = v ∧ m'.max = v) ∧
    (∀ c ∈ cs, ∃ m' ∈ ret', m'.elems = c.elems ∧ m'.min = c.value ∧ m'.max = c.value)
  | [], ret, ret', h => by
    simp only [List.foldlM_nil, pure_eq_ok, Except.ok.injEq] at h
    subst h
    exact ⟨fun m hm v h1 h2 => ⟨m, hm, rfl, h1, h2⟩, by simp⟩
  | c :: cs, ret, ret', h => by
    rw [List.foldlM_cons] at h
    obtain ⟨r1, h1, h2⟩ := bind_eq_ok.mp h
    obtain ⟨a, b⟩ := foldl_point cs r1 ret' h2
    constructor
    · intro m hm v p q
      obtain ⟨m1, x1, x2, x3, x4⟩ := stepEqual_point h1 hm p q
      obtain ⟨m2, y1, y2, y3, y4⟩ := a m1 x1 v x3 x4
      exact ⟨m2, y1, y2.trans x2, y3, y4⟩
    · intro c' hc'
      rcases List.mem_cons.mp hc' with rfl | hc'
      · obtain ⟨m, x1, x2, x3⟩ := step_tight (op := .equal) h1
        obtain ⟨m2, y1, y2, y3, y4⟩ := a m x1 _ (x3 rfl).1 (x3 rfl).2
        exact ⟨m2, y1, y2.trans x2.1, y3, y4⟩
      · exact b c' hc'

theorem foldl_tight {op : Op} : ∀ (cs : List Constr) (ret ret' : List Merged),
    cs.foldlM (stepOf op) ret = .ok ret' → ∀ c ∈ cs, ∃ m ∈ ret', Tight op c m
  | [], ret, ret', _ => by simp
  | c :: cs, ret, ret', h => by
    rw [List.foldlM_cons] at h
    obtain ⟨r1, h1, h2⟩ := bind_eq_ok.mp h
    intro c' hc'
    rcases List.mem_cons.mp hc' with rfl | hc'
    · obtain ⟨m, x1, x2, -⟩ := step_tight h1
      obtain ⟨m2, y1, y2, y3, y4⟩ := (foldl_inv (step_spec op) cs r1 ret' h2).2.1 m x1
      exact ⟨m2, y1, y2.trans x2.1, fun h => le_trans (x2.2.1 h) y3,
        fun h => le_trans y4 (x2.2.2 h)⟩
    · exact foldl_tight cs r1 ret' h2 c' hc'

/-! ### Several fills -/

theorem fills_sat (pb : Problem) (x : Assign) (hfit : ∀ op, ∀ c ∈ cstsOf pb op, Fits c) :
    ∀ (l : List Op) (ret ret' : List Merged), l.foldlM (fill pb) ret = .ok ret' →
      ((∀ m ∈ ret', satM x m) ↔ (∀ m ∈ ret, satM x m) ∧
        ∀ op ∈ l, ∀ c ∈ cstsOf pb op, sat op c x)
  | [], ret, ret', h => by
    simp only [List.foldlM_nil, pure_eq_ok, Except.ok.injEq] at h
    subst h; simp
  | op :: l, ret, ret', h => by
    rw [List.foldlM_cons] at h
    obtain ⟨r1, h1, h2⟩ := bind_eq_ok.mp h
    rw [fill_eq] at h1
    rw [fills_sat pb x hfit l r1 ret' h2, foldl_sat (step_spec op) x _ _ _ (hfit op) h1]
    simp only [List.forall_mem_cons]
    tauto

theorem fills_err (pb : Problem) {f : Fault} (hfit : ∀ op, ∀ c ∈ cstsOf pb op, Fits c) :
    ∀ (l : List Op) (ret : List Merged), l.foldlM (fill pb) ret = .error f →
      f = .exn "multiple_constraint" ∧
      ∀ x, ¬ ((∀ m ∈ ret, satM x m) ∧ ∀ op ∈ l, ∀ c ∈ cstsOf pb op, sat op c x)
  | [], ret, h => by simp [pure_eq_ok] at h
  | op :: l, ret, h => by
    rw [List.foldlM_cons] at h
    cases h1 : fill pb ret op with
    | error g =>
      rw [h1] at h
      cases h
      rw [fill_eq] at h1
      obtain ⟨a, b⟩ := foldl_err (step_spec op) _ _ (hfit op) h1
      exact ⟨a, fun x hx => b x ⟨hx.1, hx.2 op (by simp)⟩⟩
    | ok r1 =>
      rw [h1, ok_bind] at h
      obtain ⟨a, b⟩ := fills_err pb hfit l r1 h
      rw [fill_eq] at h1
      refine ⟨a, fun x hx => b x ⟨?_, fun op' h' => hx.2 op' (by simp [h'])⟩⟩
      exact (foldl_sat (step_spec op) x _ _ _ (hfit op) h1).mpr ⟨hx.1, hx.2 op (by simp)⟩

theorem fills_inv (pb : Problem) :
    ∀ (l : List Op) (ret ret' : List Merged), l.foldlM (fill pb) ret = .ok ret' →
      ((ret.map Merged.elems).Nodup → (ret'.map Merged.elems).Nodup) ∧
      (∀ m ∈ ret, ∃ m' ∈ ret', m'.elems = m.elems ∧ m.min ≤ m'.min ∧ m'.max ≤ m.max) ∧
      ret'.length ≤ ret.length + (l.map fun op => (cstsOf pb op).length).sum ∧
      (∀ m ∈ ret', (∃ op ∈ l, ∃ c ∈ cstsOf pb op, c.elems = m.elems) ∨
        ∃ m0 ∈ ret, m0.elems = m.elems)
  | [], ret, ret', h => by
    simp only [List.foldlM_nil, pure_eq_ok, Except.ok.injEq] at h
    subst h
    exact ⟨id, fun m hm => ⟨m, hm, rfl, le_refl _, le_refl _⟩, by simp,
      fun m hm => Or.inr ⟨m, hm, rfl⟩⟩
  | op :: l, ret, ret', h => by
    rw [List.foldlM_cons] at h
    obtain ⟨r1, h1, h2⟩ := bind_eq_ok.mp h
    rw [fill_eq] at h1
    obtain ⟨a, b, d, e⟩ := fills_inv pb l r1 ret' h2
    obtain ⟨a', b', d', e'⟩ := foldl_inv (step_spec op) _ _ _ h1
    refine ⟨fun hn => a (a' hn), ?_, ?_, ?_⟩
    · intro m hm
      obtain ⟨m1, q1, q2, q3, q4⟩ := b' m hm
      obtain ⟨m2, r1, r2, r3, r4⟩ := b m1 q1
      exact ⟨m2, r1, r2.trans q2, le_trans q3 r3, le_trans r4 q4⟩
    · simp only [List.map_cons, List.sum_cons]
      omega
    · intro m hm
      rcases e m hm with ⟨op', h3, c', h4, h5⟩ | ⟨m0, h3, h4⟩
      · exact Or.inl ⟨op', by simp [h3], c', h4, h5⟩
      · rcases e' m0 h3 with ⟨c', h5, h6⟩ | ⟨m1, h5, h6⟩
        · exact Or.inl ⟨op, by simp, c', h5, h6.trans h4⟩
        · exact Or.inr ⟨m1, h5, h6.trans h4⟩

/-! ### The final sorts -/

/-- `B` is `A` up to the order of the constraints and of their elements, and to
the ids. -/
structure SameCsts (A B : List Merged) : Prop where
  fwd : ∀ a ∈ A, ∃ b ∈ B, b.min = a.min ∧ b.max = a.max ∧ b.elems.Perm a.elems
  bwd : ∀ b ∈ B, ∃ a ∈ A, b.min = a.min ∧ b.max = a.max ∧ b.elems.Perm a.elems
  len : B.length = A.length

theorem SameCsts.sat {A B : List Merged} (h : SameCsts A B) (x : Assign) :
    (∀ m ∈ B, satM x m) ↔ ∀ m ∈ A, satM x m := by
  constructor
  · intro hb a ha
    obtain ⟨b, h1, h2, h3, h4⟩ := h.fwd a ha
    have := hb b h1
    unfold satM at *
    rw [← h2, ← h3, ← lhs_perm h4]
    exact this
  · intro ha b hb
    obtain ⟨a, h1, h2, h3, h4⟩ := h.bwd b hb
    have := ha a h1
    unfold satM at *
    rw [h2, h3, lhs_perm h4]
    exact this

theorem SameCsts.of_perm {A B : List Merged} (h : B.Perm A) : SameCsts A B :=
  ⟨fun a ha => ⟨a, h.mem_iff.mpr ha, rfl, rfl, List.Perm.refl _⟩,
   fun a ha => ⟨a, h.mem_iff.mp ha, rfl, rfl, List.Perm.refl _⟩, h.length_eq⟩

theorem SameCsts.map_elems {A : List Merged} {g : List FunElem → List FunElem}
    (h : ∀ l, (g l).Perm l) : SameCsts A (A.map fun c => { c with elems := g c.elems }) :=
  ⟨fun a ha => ⟨_, List.mem_map_of_mem ha, rfl, rfl, h _⟩,
   fun b hb => by
    obtain ⟨a, ha, rfl⟩ := List.mem_map.mp hb
    exact ⟨a, ha, rfl, rfl, h _⟩, by simp⟩

theorem SameCsts.trans {A B C : List Merged} (h1 : SameCsts A B) (h2 : SameCsts B C) :
    SameCsts A C :=
  ⟨fun a ha => by
    obtain ⟨b, p1, p2, p3, p4⟩ := h1.fwd a ha
    obtain ⟨c, q1, q2, q3, q4⟩ := h2.fwd b p1
    exact ⟨c, q1, q2.trans p2, q3.trans p3, q4.trans p4⟩,
   fun c hc => by
    obtain ⟨b, q1, q2, q3, q4⟩ := h2.bwd c hc
    obtain ⟨a, p1, p2, p3, p4⟩ := h1.bwd b q1
    exact ⟨a, p1, q2.trans p2, q3.trans p3, q4.trans p4⟩,
   h2.len.trans h1.len⟩

theorem SameCsts.ids {A : List Merged} {l : List (Nat × Rat)} (h : l.length = A.length) :
    SameCsts A ((A.zip l).map fun p => { p.1 with id := (p.2.1 : Int) }) := by
  refine ⟨fun a ha => ?_, fun b hb => ?_, by simp [h]⟩
  · obtain ⟨i, hi, rfl⟩ := List.getElem_of_mem ha
    refine ⟨{ A[i] with id := ((l[i]'(by omega)).1 : Int) }, ?_, rfl, rfl, List.Perm.refl _⟩
    refine List.mem_map.mpr ⟨(A[i], l[i]'(by omega)), ?_, rfl⟩
    refine List.mem_iff_getElem.mpr ⟨i, by simp; omega, by simp⟩
  · obtain ⟨⟨a, q⟩, ha, rfl⟩ := List.mem_map.mp hb
    exact ⟨a, (List.of_mem_zip ha).1, rfl, rfl, List.Perm.refl _⟩

/-- The order in which an option fills the constraints. -/
def fillOrder (o : Order) : List Op :=
  match o with
  | .none | .memory | .p1 | .p2 | .p3 | .p4 => [.equal, .less, .greater]
  | o => ops o

theorem makeUnsorted_eq (s : Sorts) (pb : Problem) :
    makeUnsorted s pb = (do
      let ret ← [Op.equal, .less, .greater].foldlM (fill pb) []
      .ok (s.byId ret)) := by
  simp only [makeUnsorted, List.foldlM_cons, List.foldlM_nil, bind_assoc, pure_bind]

/-- Whatever the option, the result is that of the fills, reordered; the only
faults are the exception and undefined behaviour in the special orders. -/
theorem make_cases (s : Sorts) (hs : s.Ok) (o : Order) (pb : Problem) :
    (∃ f, (fillOrder o).foldlM (fill pb) [] = .error f ∧ make s o pb = .error f) ∨
    ∃ r, (fillOrder o).foldlM (fill pb) [] = .ok r ∧
      ((∃ ret, make s o pb = .ok ret ∧ SameCsts r ret) ∨
       (∃ w, make s o pb = .error (.ub w)) ∧
        (o = .p1 ∨ o = .p2 ∨ o = .p3 ∨ o = .p4)) := by
  have hord : ∀ o', (o' = .lessGreaterEqual ∨ o' = .lessEqualGreater ∨ o' = .greaterLessEqual ∨
      o' = .greaterEqualLess ∨ o' = .equalLessGreater ∨ o' = .equalGreaterLess) →
      make s o' pb = (do
        let r ← (ops o').foldlM (fill pb) []
        .ok (improveMemory s r)) ∧ fillOrder o' = ops o' := by
    rintro o' (rfl | rfl | rfl | rfl | rfl | rfl) <;> exact ⟨rfl, rfl⟩
  have hgen : ∀ o', (o' = .lessGreaterEqual ∨ o' = .lessEqualGreater ∨ o' = .greaterLessEqual ∨
      o' = .greaterEqualLess ∨ o' = .equalLessGreater ∨ o' = .equalGreaterLess) →
      (∃ f, (fillOrder o').foldlM (fill pb) [] = .error f ∧ make s o' pb = .error f) ∨
      ∃ r, (fillOrder o').foldlM (fill pb) [] = .ok r ∧
        ∃ ret, make s o' pb = .ok ret ∧ SameCsts r ret := by
    intro o' ho'
    obtain ⟨h1, h2⟩ := hord o' ho'
    rw [h1, h2]
    cases h : (ops o').foldlM (fill pb) [] with
    | error f => exact Or.inl ⟨f, rfl, rfl⟩
    | ok r => exact Or.inr ⟨r, rfl, _, rfl, SameCsts.map_elems hs.byVar_perm⟩
  have hsp : (o = .p1 ∨ o = .p2 ∨ o = .p3 ∨ o = .p4) →
      (∃ f, (fillOrder o).foldlM (fill pb) [] = .error f ∧ make s o pb = .error f) ∨
      ∃ r, (fillOrder o).foldlM (fill pb) [] = .ok r ∧
        ((∃ ret, make s o pb = .ok ret ∧ SameCsts r ret) ∨
         (∃ w, make s o pb = .error (.ub w)) ∧
          (o = .p1 ∨ o = .p2 ∨ o = .p3 ∨ o = .p4)) := by
    intro ho
    have h1 : make s o pb = makeSpecial s o pb := by rcases ho with rfl | rfl | rfl | rfl <;> rfl
    have h2 : fillOrder o = [.equal, .less, .greater] := by
      rcases ho with rfl | rfl | rfl | rfl <;> rfl
    rw [h1, h2]
    unfold makeSpecial
    rw [makeUnsorted_eq]
    cases h : [Op.equal, .less, .greater].foldlM (fill pb) [] with
    | error f => exact Or.inl ⟨f, rfl, rfl⟩
    | ok r =>
      refine Or.inr ⟨r, rfl, ?_⟩
      simp only [ok_bind]
      split
      · exact Or.inr ⟨⟨_, rfl⟩, ho⟩
      · cases hm : (s.byId r).mapM (ratio (varCost (s.byId r) pb.objective)) with
        | error f =>
          refine Or.inr ⟨?_, ho⟩
          have : ∀ (l : List Merged) (c : Nat → Rat) (f : Fault), l.mapM (ratio c) = .error f →
              ∃ w, f = .ub w := by
            intro l
            induction l with
            | nil => intro c f h; simp [pure_eq_ok] at h
            | cons a l ih =>
              intro c f h
              rw [List.mapM_cons] at h
              cases ha : ratio c a with
              | error g =>
                rw [ha] at h
                cases h
                unfold ratio at ha
                split at ha
                · exact ⟨_, (Except.error.inj ha).symm⟩
                · cases ha
              | ok q =>
                rw [ha, ok_bind] at h
                cases hl : l.mapM (ratio c) with
                | error g =>
                  rw [hl] at h
                  cases h
                  exact ih _ _ hl
                | ok ls => rw [hl] at h; simp [ok_bind, pure_eq_ok] at h
          obtain ⟨w, rfl⟩ := this _ _ _ hm
          exact ⟨w, rfl⟩
        | ok ratios =>
          refine Or.inl ⟨_, rfl, ?_⟩
          have hlen : ratios.length = (s.byId r).length := by
            have : ∀ (l : List Merged) (c : Nat → Rat) (rs : List Rat), l.mapM (ratio c) = .ok rs →
                rs.length = l.length := by
              intro l
              induction l with
              | nil =>
                intro c rs h
                simp only [List.mapM_nil, pure_eq_ok, Except.ok.injEq] at h
                subst h; rfl
              | cons a l ih =>
                intro c rs h
                rw [List.mapM_cons] at h
                obtain ⟨q, _, h⟩ := bind_eq_ok.mp h
                obtain ⟨qs, h3, h⟩ := bind_eq_ok.mp h
                simp only [pure_eq_ok, Except.ok.injEq] at h
                subst h
                simp [ih _ _ h3]
            exact this _ _ _ hm
          refine (SameCsts.of_perm (hs.byId_perm r)).trans ?_
          refine (SameCsts.ids (l := s.byRatio (decide (o = .p1))
            ((List.range (s.byId r).length).zip ratios)) ?_).trans ?_
          · rw [(hs.byRatio_perm _ _).length_eq]
            simp [hlen]
          · exact (SameCsts.of_perm (hs.byId_perm _)).trans
              (SameCsts.map_elems (hs.byCost_perm _))
  cases o with
  | none =>
    show (∃ f, _ ∧ makeUnsorted s pb = _) ∨ ∃ r, _ ∧ ((∃ ret, makeUnsorted s pb = _ ∧ _) ∨ _)
    rw [makeUnsorted_eq]
    cases h : [Op.equal, .less, .greater].foldlM (fill pb) [] with
    | error f => exact Or.inl ⟨f, h, rfl⟩
    | ok r => exact Or.inr ⟨r, h, Or.inl ⟨_, rfl, SameCsts.of_perm (hs.byId_perm r)⟩⟩
  | memory =>
    show (∃ f, _ ∧ (do let r ← makeUnsorted s pb; Except.ok (improveMemory s r)) = _) ∨
      ∃ r, _ ∧ ((∃ ret, (do let r ← makeUnsorted s pb; Except.ok (improveMemory s r)) = _ ∧ _) ∨ _)
    rw [makeUnsorted_eq]
    cases h : [Op.equal, .less, .greater].foldlM (fill pb) [] with
    | error f => exact Or.inl ⟨f, h, rfl⟩
    | ok r =>
      exact Or.inr ⟨r, h, Or.inl ⟨_, rfl, (SameCsts.of_perm (hs.byId_perm r)).trans
        (SameCsts.map_elems hs.byVar_perm)⟩⟩
  | p1 => exact hsp (by simp)
  | p2 => exact hsp (by simp)
  | p3 => exact hsp (by simp)
  | p4 => exact hsp (by simp)
  | lessGreaterEqual =>
    rcases hgen .lessGreaterEqual (by simp) with h | ⟨r, h1, h2⟩
    · exact Or.inl h
    · exact Or.inr ⟨r, h1, Or.inl h2⟩
  | lessEqualGreater =>
    rcases hgen .lessEqualGreater (by simp) with h | ⟨r, h1, h2⟩
    · exact Or.inl h
    · exact Or.inr ⟨r, h1, Or.inl h2⟩
  | greaterLessEqual =>
    rcases hgen .greaterLessEqual (by simp) with h | ⟨r, h1, h2⟩
    · exact Or.inl h
    · exact Or.inr ⟨r, h1, Or.inl h2⟩
  | greaterEqualLess =>
    rcases hgen .greaterEqualLess (by simp) with h | ⟨r, h1, h2⟩
    · exact Or.inl h
    · exact Or.inr ⟨r, h1, Or.inl h2⟩
  | equalLessGreater =>
    rcases hgen .equalLessGreater (by simp) with h | ⟨r, h1, h2⟩
    · exact Or.inl h
    · exact Or.inr ⟨r, h1, Or.inl h2⟩
  | equalGreaterLess =>
    rcases hgen .equalGreaterLess (by simp) with h | ⟨r, h1, h2⟩
    · exact Or.inl h
    · exact Or.inr ⟨r, h1, Or.inl h2⟩

theorem mem_fillOrder (o : Order) (op : Op) : op ∈ fillOrder o := by
  cases o <;> cases op <;> decide

theorem sum_fillOrder (o : Order) (pb : Problem) :
    ((fillOrder o).map fun op => (cstsOf pb op).length).sum =
      pb.eqs.length + pb.ges.length + pb.les.length := by
  cases o <;> simp [fillOrder, ops, cstsOf] <;> omega

end Bx.Merge
