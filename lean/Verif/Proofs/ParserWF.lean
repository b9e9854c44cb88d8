import Verif.Spec.Parser
import Verif.Proofs.Sim

/-!
# The parser keeps a well formed problem
-/

namespace Bx.Parser

open Params (D)

theorem orStop_eq_ok {α : Type} {o : Option α} {t : Tag} {a : α} :
    orStop o t = .ok a ↔ o = some a := by
  cases o <;> simp [orStop]

theorem getVariable_lt {p : PProblem} {n : Token} {i : Nat} (h : p.getVariable n = some i) :
    i < p.names.length := by
  unfold PProblem.getVariable at h
  rw [List.findIdx?_eq_some_iff_findIdx_eq] at h
  exact h.1

theorem getVariable_none {p : PProblem} {n : Token} (h : p.getVariable n = none) :
    n ∉ p.names := by
  unfold PProblem.getVariable at h
  rw [List.findIdx?_eq_none_iff] at h
  intro hn
  simpa using h n hn

/-- A problem with more variables. -/
structure Extends (p q : PProblem) : Prop where
  elems : q.elems = p.elems
  qelems : q.qelems = p.qelems
  eqs : q.eqs = p.eqs
  ges : q.ges = p.ges
  les : q.les = p.les
  len : p.names.length ≤ q.names.length

theorem ParsedOk.getOrAssign {p q : PProblem} (h : ParsedOk p) {n : Token} {i : Nat}
    (he : p.getOrAssign n = some (i, q)) : ParsedOk q ∧ i < q.names.length ∧ Extends p q := by
  unfold PProblem.getOrAssign at he
  split at he
  · rename_i j hj
    simp only [Option.some.injEq, Prod.mk.injEq] at he
    obtain ⟨rfl, rfl⟩ := he
    exact ⟨h, getVariable_lt hj, ⟨rfl, rfl, rfl, rfl, rfl, le_refl _⟩⟩
  · rename_i hj
    split at he
    · cases he
    · simp only [Option.some.injEq, Prod.mk.injEq] at he
      obtain ⟨rfl, rfl⟩ := he
      have hl : (p.names ++ [n]).length = p.names.length + 1 := by simp
      refine ⟨?_, by simp, ⟨rfl, rfl, rfl, rfl, rfl, by simp⟩⟩
      constructor
      · simp [h.names_len]
      · exact List.nodup_append.mpr ⟨h.names_nodup, by simp, by
          intro a ha b hb
          simp only [List.mem_singleton] at hb
          rintro rfl
          exact getVariable_none hj (hb ▸ ha)⟩
      · intro e he; rw [hl]; exact Nat.lt_succ_of_lt (h.obj_lt e he)
      · exact h.obj_nodup
      · intro e he; rw [hl]
        exact ⟨Nat.lt_succ_of_lt (h.quad_lt e he).1, Nat.lt_succ_of_lt (h.quad_lt e he).2⟩
      · exact h.quad_nodup
      · intro c hc e he; rw [hl]; exact Nat.lt_succ_of_lt (h.con_lt c hc e he)
      · exact h.con_nodup
      · exact h.ids_perm
      · exact h.ids_eqs
      · exact h.ids_ges
      · exact h.ids_les

theorem addObj_vars (f : D) (id : Nat) (l : List PElem) :
    (addObj f id l).map PElem.var =
      if id ∈ l.map PElem.var then l.map PElem.var else l.map PElem.var ++ [id] := by
  induction l with
  | nil => simp [addObj]
  | cons e es ih =>
    unfold addObj
    by_cases h : e.var = id
    · simp [h]
    · rw [if_neg h, List.map_cons, ih]
      have : id ≠ e.var := fun hc => h hc.symm
      by_cases hm : id ∈ es.map PElem.var
      · rw [if_pos hm, if_pos (by simp only [List.map_cons, List.mem_cons]; exact Or.inr hm)]
        simp
      · rw [if_neg hm, if_neg (by
          simp only [List.map_cons, List.mem_cons, not_or]; exact ⟨this, hm⟩)]
        simp

theorem addObj_nodup {f : D} {id : Nat} {l : List PElem} (h : (l.map PElem.var).Nodup) :
    ((addObj f id l).map PElem.var).Nodup := by
  rw [addObj_vars]
  split
  · exact h
  · rename_i hm
    exact List.nodup_append.mpr ⟨h, by simp, by
      intro a ha b hb
      simp only [List.mem_singleton] at hb
      rintro rfl
      exact hm (hb ▸ ha)⟩

theorem addObj_lt {f : D} {id n : Nat} {l : List PElem} (h : ∀ e ∈ l, e.var < n) (hi : id < n) :
    ∀ e ∈ addObj f id l, e.var < n := by
  intro e he
  have : e.var ∈ (addObj f id l).map PElem.var := List.mem_map_of_mem he
  rw [addObj_vars] at this
  split at this
  · obtain ⟨x, hx, e⟩ := List.mem_map.mp this
    rw [← e]; exact h x hx
  · rcases List.mem_append.mp this with h1 | h1
    · obtain ⟨x, hx, e⟩ := List.mem_map.mp h1
      rw [← e]; exact h x hx
    · simp only [List.mem_singleton] at h1
      rw [h1]; exact hi

theorem ParsedOk.setElems {p : PProblem} (h : ParsedOk p) {es : List PElem}
    (h1 : (es.map PElem.var).Nodup) (h2 : ∀ e ∈ es, e.var < p.names.length) :
    ParsedOk { p with elems := es } :=
  ⟨h.names_len, h.names_nodup, h2, h1, h.quad_lt, h.quad_nodup, h.con_lt, h.con_nodup,
    h.ids_perm, h.ids_eqs, h.ids_ges, h.ids_les⟩

theorem ParsedOk.appendObjective {p q : PProblem} (h : ParsedOk p) {f : D} {n : Token}
    (he : p.appendObjective f n = some q) : ParsedOk q ∧ Extends { p with elems := [] }
      { q with elems := [] } := by
  unfold PProblem.appendObjective at he
  split at he
  · simp only [Option.some.injEq] at he
    subst he
    exact ⟨⟨h.names_len, h.names_nodup, h.obj_lt, h.obj_nodup, h.quad_lt, h.quad_nodup, h.con_lt,
      h.con_nodup, h.ids_perm, h.ids_eqs, h.ids_ges, h.ids_les⟩,
      ⟨rfl, rfl, rfl, rfl, rfl, le_refl _⟩⟩
  · split at he
    · cases he
    · rename_i id p1 h1
      simp only [Option.some.injEq] at he
      subst he
      obtain ⟨g1, g2, g3⟩ := h.getOrAssign h1
      exact ⟨g1.setElems (addObj_nodup g1.obj_nodup) (addObj_lt g1.obj_lt g2),
        ⟨rfl, g3.qelems, g3.eqs, g3.ges, g3.les, g3.len⟩⟩

theorem addQuad_ok {f : D} {i j n : Nat} {l : List PQuad}
    (h1 : ∀ e ∈ l, e.a < n ∧ e.b < n) (hi : i < n) (hj : j < n)
    (h2 : l.Pairwise fun e f => ¬ (e.a = f.a ∧ e.b = f.b) ∧ ¬ (e.a = f.b ∧ e.b = f.a)) :
    (∀ e ∈ addQuad f i j l, e.a < n ∧ e.b < n) ∧
    ((addQuad f i j l).Pairwise fun e f =>
      ¬ (e.a = f.a ∧ e.b = f.b) ∧ ¬ (e.a = f.b ∧ e.b = f.a)) ∧
    (∀ e ∈ addQuad f i j l, (e.a = i ∧ e.b = j) ∨ ∃ e' ∈ l, e'.a = e.a ∧ e'.b = e.b) := by
  induction l with
  | nil => simp [addQuad, hi, hj]
  | cons e es ih =>
    rw [List.pairwise_cons] at h2
    obtain ⟨i1, i2, i3⟩ := ih (fun x hx => h1 x (List.mem_cons_of_mem _ hx)) h2.2
    unfold addQuad
    split
    · rename_i hc
      refine ⟨?_, ?_, ?_⟩
      · intro x hx
        rcases List.mem_cons.mp hx with rfl | hx
        · exact h1 e List.mem_cons_self
        · exact h1 x (List.mem_cons_of_mem _ hx)
      · exact List.pairwise_cons.mpr ⟨fun x hx => h2.1 x hx, h2.2⟩
      · intro x hx
        rcases List.mem_cons.mp hx with rfl | hx
        · exact Or.inr ⟨e, List.mem_cons_self, rfl, rfl⟩
        · exact Or.inr ⟨x, List.mem_cons_of_mem _ hx, rfl, rfl⟩
    · rename_i hc
      refine ⟨?_, ?_, ?_⟩
      · intro x hx
        rcases List.mem_cons.mp hx with rfl | hx
        · exact h1 x List.mem_cons_self
        · exact i1 x hx
      · refine List.pairwise_cons.mpr ⟨fun x hx => ?_, i2⟩
        rcases i3 x hx with ⟨ha, hb⟩ | ⟨y, hy, ha, hb⟩
        · rw [ha, hb]
          rw [not_or] at hc
          exact hc
        · rw [← ha, ← hb]; exact h2.1 y hy
      · intro x hx
        rcases List.mem_cons.mp hx with rfl | hx
        · exact Or.inr ⟨x, List.mem_cons_self, rfl, rfl⟩
        · rcases i3 x hx with h | ⟨y, hy, h⟩
          · exact Or.inl h
          · exact Or.inr ⟨y, List.mem_cons_of_mem _ hy, h⟩

theorem ParsedOk.addQuad {p : PProblem} (h : ParsedOk p) {f : D} {i j : Nat}
    (hi : i < p.names.length) (hj : j < p.names.length) :
    ParsedOk { p with qelems := addQuad f i j p.qelems } := by
  obtain ⟨h1, h2, -⟩ := addQuad_ok (f := f) h.quad_lt hi hj h.quad_nodup
  exact ⟨h.names_len, h.names_nodup, h.obj_lt, h.obj_nodup, h1, h2, h.con_lt, h.con_nodup,
    h.ids_perm, h.ids_eqs, h.ids_ges, h.ids_les⟩

theorem addFun_vars {f : Int} {id : Nat} : ∀ {l r : List FunElem}, addFun f id l = .ok r →
    r.map FunElem.var =
      if id ∈ l.map FunElem.var then l.map FunElem.var else l.map FunElem.var ++ [id] := by
  intro l
  induction l with
  | nil =>
    intro r h
    simp only [addFun, Except.ok.injEq] at h
    subst h; simp
  | cons e es ih =>
    intro r h
    unfold addFun at h
    by_cases hv : e.var = id
    · rw [if_pos hv, pm_bind_eq_ok] at h
      obtain ⟨g, -, h⟩ := h
      simp only [Except.ok.injEq] at h
      subst h
      simp [hv]
    · rw [if_neg hv, pm_bind_eq_ok] at h
      obtain ⟨g, hg, h⟩ := h
      simp only [Except.ok.injEq] at h
      subst h
      rw [List.map_cons, ih hg]
      have : id ≠ e.var := fun hc => hv hc.symm
      by_cases hm : id ∈ es.map FunElem.var
      · rw [if_pos hm, if_pos (by simp only [List.map_cons, List.mem_cons]; exact Or.inr hm)]
        simp
      · rw [if_neg hm, if_neg (by
          simp only [List.map_cons, List.mem_cons, not_or]; exact ⟨this, hm⟩)]
        simp

/-- The terms of a constraint being read. -/
def FunsOk (es : List FunElem) (n : Nat) : Prop :=
  (es.map FunElem.var).Nodup ∧ ∀ e ∈ es, e.var < n

theorem FunsOk.mono {es : List FunElem} {n m : Nat} (h : FunsOk es n) (hm : n ≤ m) :
    FunsOk es m := ⟨h.1, fun e he => lt_of_lt_of_le (h.2 e he) hm⟩

theorem FunsOk.addFun {es r : List FunElem} {n : Nat} (h : FunsOk es n) {f : Int} {id : Nat}
    (hi : id < n) (hr : addFun f id es = .ok r) : FunsOk r n := by
  have hv := addFun_vars hr
  constructor
  · rw [hv]
    split
    · exact h.1
    · rename_i hm
      exact List.nodup_append.mpr ⟨h.1, by simp, by
        intro a ha b hb
        simp only [List.mem_singleton] at hb
        rintro rfl
        exact hm (hb ▸ ha)⟩
  · intro e he
    have : e.var ∈ r.map FunElem.var := List.mem_map_of_mem he
    rw [hv] at this
    split at this
    · obtain ⟨x, hx, e⟩ := List.mem_map.mp this
      rw [← e]; exact h.2 x hx
    · rcases List.mem_append.mp this with h1 | h1
      · obtain ⟨x, hx, e⟩ := List.mem_map.mp h1
        rw [← e]; exact h.2 x hx
      · simp only [List.mem_singleton] at h1
        rw [h1]; exact hi

theorem ParsedOk.setValues {p : PProblem} (h : ParsedOk p) {vs : List VarValue}
    (h1 : vs.length = p.values.length) : ParsedOk { p with values := vs } :=
  ⟨h.names_len.trans h1.symm, h.names_nodup, h.obj_lt, h.obj_nodup, h.quad_lt, h.quad_nodup,
    h.con_lt, h.con_nodup, h.ids_perm, h.ids_eqs, h.ids_ges, h.ids_les⟩

theorem Pairwise_snoc {l : List Constr} {c : Constr}
    (h : l.Pairwise fun c d => c.id < d.id) (hc : ∀ d ∈ l, d.id < c.id) :
    (l ++ [c]).Pairwise fun c d => c.id < d.id := by
  refine List.pairwise_append.mpr ⟨h, by simp, ?_⟩
  intro a ha b hb
  simp only [List.mem_singleton] at hb
  rw [hb]; exact hc a ha

theorem ParsedOk.id_lt {p : PProblem} (h : ParsedOk p) {c : Constr} (hc : c ∈ p.constraints) :
    c.id < (p.constraints.length : Int) := by
  have : c.id ∈ p.constraints.map Constr.id := List.mem_map_of_mem hc
  rw [h.ids_perm.mem_iff] at this
  obtain ⟨i, hi, e⟩ := List.mem_map.mp this
  rw [← e]
  exact_mod_cast List.mem_range.mp hi

theorem addConstr_perm (p : PProblem) (op : Op) (c : Constr) :
    (p.addConstr op c).constraints.Perm (p.constraints ++ [c]) := by
  unfold PProblem.addConstr PProblem.constraints
  cases op
  · simp only [List.append_assoc]
    refine List.Perm.append_left _ ?_
    exact List.perm_append_comm.trans (by simp [List.append_assoc])
  · simp only [List.append_assoc]
    refine List.Perm.append_left _ (List.Perm.append_left _ ?_)
    exact List.perm_append_comm
  · simp only [List.append_assoc]
    exact List.Perm.refl _

theorem ParsedOk.addConstr {p : PProblem} (h : ParsedOk p) (op : Op) {c : Constr}
    (hc : FunsOk c.elems p.names.length) (hi : c.id = (p.constraints.length : Int)) :
    ParsedOk (p.addConstr op c) := by
  have hp := addConstr_perm p op c
  have hm : ∀ d, d ∈ (p.addConstr op c).constraints ↔ d ∈ p.constraints ∨ d = c := by
    intro d
    rw [hp.mem_iff]; simp
  have hlt : ∀ d ∈ p.constraints, d.id < c.id := fun d hd => by
    rw [hi]; exact h.id_lt hd
  have hn : (p.addConstr op c).names = p.names := addConstr_names op c
  have hv : (p.addConstr op c).values = p.values := by cases op <;> rfl
  have he : (p.addConstr op c).elems = p.elems := by cases op <;> rfl
  have hq : (p.addConstr op c).qelems = p.qelems := by cases op <;> rfl
  constructor
  · rw [hn, hv]; exact h.names_len
  · rw [hn]; exact h.names_nodup
  · rw [hn, he]; exact h.obj_lt
  · rw [he]; exact h.obj_nodup
  · rw [hn, hq]; exact h.quad_lt
  · rw [hq]; exact h.quad_nodup
  · intro d hd
    rw [hn]
    rcases (hm d).mp hd with hd | rfl
    · exact h.con_lt d hd
    · exact hc.2
  · intro d hd
    rcases (hm d).mp hd with hd | rfl
    · exact h.con_nodup d hd
    · exact hc.1
  · rw [hp.length_eq]
    refine (hp.map _).trans ?_
    rw [List.map_append, List.length_append, List.length_singleton, List.range_succ,
      List.map_append]
    simp only [List.map_cons, List.map_nil, hi]
    exact List.Perm.append_right _ h.ids_perm
  all_goals
    cases op
  all_goals
    simp only [PProblem.addConstr]
    first
    | exact h.ids_eqs
    | exact h.ids_ges
    | exact h.ids_les
    | exact Pairwise_snoc h.ids_eqs fun d hd => hlt d (by simp [PProblem.constraints, hd])
    | exact Pairwise_snoc h.ids_ges fun d hd => hlt d (by simp [PProblem.constraints, hd])
    | exact Pairwise_snoc h.ids_les fun d hd => hlt d (by simp [PProblem.constraints, hd])

section

variable {σ : Type} {src : Source σ} {scan : Token → Option D}

/-- The problem is well formed after a step, and has the same number of constraints. -/
def Keeps (p q : PProblem) : Prop := ParsedOk q ∧ q.constraints.length = p.constraints.length

theorem Keeps.trans {p q r : PProblem} (h : Keeps p q) (g : Keeps q r) : Keeps p r :=
  ⟨g.1, g.2.trans h.2⟩

theorem Extends.constraints {p q : PProblem} (h : Extends p q) : q.constraints = p.constraints := by
  unfold PProblem.constraints; rw [h.eqs, h.ges, h.les]

theorem quadProduct_ok {neg : Bool} {f : D} {n : Nat} {s s1 s2 : σ} {p q : PProblem}
    (hp : ParsedOk p) (h : quadProduct src neg f n s s1 p = .ok (s2, q)) : Keeps p q := by
  unfold quadProduct at h
  simp only [pm_bind_eq_ok, orStop_eq_ok] at h
  obtain ⟨name, -, ⟨i, p1⟩, h1, ⟨j, p2⟩, h2, s3, -, h⟩ := h
  simp only [Except.ok.injEq, Prod.mk.injEq] at h
  obtain ⟨-, rfl⟩ := h
  obtain ⟨g1, g2, g3⟩ := hp.getOrAssign h1
  obtain ⟨k1, k2, k3⟩ := g1.getOrAssign h2
  exact ⟨k1.addQuad (lt_of_lt_of_le g2 k3.len) k2,
    by show p2.constraints.length = _; rw [k3.constraints, g3.constraints]⟩

theorem quadSquare_ok {neg : Bool} {f : D} {n : Nat} {s s1 s2 : σ} {p q : PProblem}
    (hp : ParsedOk p) (h : quadSquare src neg f n s s1 p = .ok (s2, q)) : Keeps p q := by
  unfold quadSquare at h
  simp only [pm_bind_eq_ok, orStop_eq_ok] at h
  obtain ⟨s3, -, ⟨i, p1⟩, h1, h⟩ := h
  simp only [Except.ok.injEq, Prod.mk.injEq] at h
  obtain ⟨-, rfl⟩ := h
  obtain ⟨g1, g2, g3⟩ := hp.getOrAssign h1
  exact ⟨g1.addQuad g2 g2, by show p1.constraints.length = _; rw [g3.constraints]⟩

theorem quadLoop_ok {neg : Bool} : ∀ {k : Nat} {s s2 : σ} {p q : PProblem}, ParsedOk p →
    quadLoop src scan neg k s p = .ok (s2, q) → Keeps p q := by
  intro k
  induction k with
  | zero => intro s s2 p q hp h; cases h
  | succ k ih =>
    intro s s2 p q hp h
    unfold quadLoop at h
    split at h
    · simp only [Except.ok.injEq, Prod.mk.injEq] at h
      obtain ⟨-, rfl⟩ := h
      exact ⟨hp, rfl⟩
    · simp only [pm_bind_eq_ok] at h
      obtain ⟨e, -, ⟨f, n⟩, -, s1, -, h⟩ := h
      split at h
      · rw [pm_bind_eq_ok] at h
        obtain ⟨⟨s3, p1⟩, h1, h⟩ := h
        exact (quadProduct_ok hp h1).trans (ih (quadProduct_ok hp h1).1 h)
      · split at h
        · rw [pm_bind_eq_ok] at h
          obtain ⟨⟨s3, p1⟩, h1, h⟩ := h
          exact (quadSquare_ok hp h1).trans (ih (quadSquare_ok hp h1).1 h)
        · exact ih hp h

theorem readQuadratic_ok {neg : Bool} {k : Nat} {s s2 : σ} {p q : PProblem} (hp : ParsedOk p)
    (h : readQuadratic src scan k neg s p = .ok (s2, q)) : Keeps p q := by
  unfold readQuadratic at h
  split at h
  · cases h
  · simp only [pm_bind_eq_ok] at h
    obtain ⟨s1, -, ⟨s3, p1⟩, h1, s4, -, h⟩ := h
    simp only [Except.ok.injEq, Prod.mk.injEq] at h
    obtain ⟨-, rfl⟩ := h
    exact quadLoop_ok hp h1

theorem objQuadratic_ok {k : Nat} {s s2 : σ} {p q : PProblem} (hp : ParsedOk p)
    (h : objQuadratic src scan k s p = .ok (s2, q)) : Keeps p q := by
  unfold objQuadratic at h
  split at h
  · rw [pm_bind_eq_ok] at h
    obtain ⟨s1, -, h⟩ := h
    exact readQuadratic_ok hp h
  · split at h
    · rw [pm_bind_eq_ok] at h
      obtain ⟨s1, -, h⟩ := h
      exact readQuadratic_ok hp h
    · exact readQuadratic_ok hp h

theorem objElem_ok {s s2 : σ} {p q : PProblem} (hp : ParsedOk p)
    (h : objElem src scan s p = .ok (s2, q)) : Keeps p q := by
  unfold objElem at h
  simp only [pm_bind_eq_ok, orStop_eq_ok] at h
  obtain ⟨e, -, ⟨f, name, n⟩, -, p1, h1, s1, -, h⟩ := h
  simp only [Except.ok.injEq, Prod.mk.injEq] at h
  obtain ⟨-, rfl⟩ := h
  obtain ⟨g1, g2⟩ := hp.appendObjective h1
  exact ⟨g1, congrArg List.length g2.constraints⟩

theorem objLoop_ok : ∀ {k : Nat} {s s2 : σ} {p q : PProblem}, ParsedOk p →
    objLoop src scan k s p = .ok (s2, q) → Keeps p q := by
  intro k
  induction k with
  | zero => intro s s2 p q hp h; cases h
  | succ k ih =>
    intro s s2 p q hp h
    unfold objLoop at h
    split at h
    · simp only [Except.ok.injEq, Prod.mk.injEq] at h
      obtain ⟨-, rfl⟩ := h
      exact ⟨hp, rfl⟩
    · split at h
      · rw [pm_bind_eq_ok] at h
        obtain ⟨⟨s3, p1⟩, h1, h⟩ := h
        exact (objQuadratic_ok hp h1).trans (ih (objQuadratic_ok hp h1).1 h)
      · rw [pm_bind_eq_ok] at h
        obtain ⟨⟨s3, p1⟩, h1, h⟩ := h
        exact (objElem_ok hp h1).trans (ih (objElem_ok hp h1).1 h)

theorem constrElem_ok {s s2 : σ} {p q : PProblem} {es r : List FunElem} (hp : ParsedOk p)
    (he : FunsOk es p.names.length) (h : constrElem src scan s p es = .ok (s2, q, r)) :
    Keeps p q ∧ FunsOk r q.names.length := by
  unfold constrElem at h
  simp only [pm_bind_eq_ok, orStop_eq_ok] at h
  obtain ⟨e, -, ⟨f, name, n⟩, -, ⟨id, p1⟩, h1, v, -, es1, h2, s1, -, h⟩ := h
  simp only [Except.ok.injEq, Prod.mk.injEq] at h
  obtain ⟨-, rfl, rfl⟩ := h
  obtain ⟨g1, g2, g3⟩ := hp.getOrAssign h1
  exact ⟨⟨g1, by rw [g3.constraints]⟩, (he.mono g3.len).addFun g2 h2⟩

theorem elemLoop_ok : ∀ {k : Nat} {s s2 : σ} {p q : PProblem} {es r : List FunElem}, ParsedOk p →
    FunsOk es p.names.length → elemLoop src scan k s p es = .ok (s2, q, r) →
    Keeps p q ∧ FunsOk r q.names.length := by
  intro k
  induction k with
  | zero => intro s s2 p q es r hp he h; cases h
  | succ k ih =>
    intro s s2 p q es r hp he h
    unfold elemLoop at h
    split at h
    · simp only [Except.ok.injEq, Prod.mk.injEq] at h
      obtain ⟨-, rfl, rfl⟩ := h
      exact ⟨⟨hp, rfl⟩, he⟩
    · rw [pm_bind_eq_ok] at h
      obtain ⟨⟨s3, p1, e1⟩, h1, h⟩ := h
      obtain ⟨g1, g2⟩ := constrElem_ok hp he h1
      obtain ⟨g3, g4⟩ := ih g1.1 g2 h
      exact ⟨g1.trans g3, g4⟩

theorem constrLoop_ok : ∀ {k id : Nat} {s s2 : σ} {p q : PProblem}, ParsedOk p →
    id = p.constraints.length → constrLoop src scan k id s p = .ok (s2, q) → ParsedOk q := by
  intro k
  induction k with
  | zero => intro id s s2 p q hp he h; cases h
  | succ k ih =>
    intro id s s2 p q hp hid h
    unfold constrLoop at h
    split at h
    · simp only [Except.ok.injEq, Prod.mk.injEq] at h
      obtain ⟨-, rfl⟩ := h
      exact hp
    · simp only [pm_bind_eq_ok] at h
      obtain ⟨⟨s1, label⟩, -, ⟨s3, p1, e1⟩, h1, ⟨s4, p2, e2⟩, h2, ⟨s5, op, v⟩, -, h⟩ := h
      obtain ⟨g1, g2⟩ := constrElem_ok hp ⟨by simp, by simp⟩ h1
      obtain ⟨g3, g4⟩ := elemLoop_ok g1.1 g2 h2
      have hl : p2.constraints.length = id := by rw [g3.2, g1.2, hid]
      refine ih (g3.1.addConstr op (c := ⟨String.ofList label, e2, v, id⟩) g4 ?_) ?_ h
      · show (id : Int) = _
        rw [hl]
      · rw [(addConstr_perm _ _ _).length_eq, List.length_append, hl]; rfl

theorem readConstraints_ok {k : Nat} {s s2 : σ} {p q : PProblem} (hp : ParsedOk p)
    (h0 : p.constraints.length = 0) (h : readConstraints src scan k s p = .ok (s2, q)) :
    ParsedOk q := by
  unfold readConstraints at h
  split at h
  · simp only [Except.ok.injEq, Prod.mk.injEq] at h
    obtain ⟨-, rfl⟩ := h
    exact hp
  · simp only [pm_bind_eq_ok] at h
    obtain ⟨s1, -, ⟨s3, p1⟩, h1, h⟩ := h
    split at h
    · cases h
    · simp only [Except.ok.injEq, Prod.mk.injEq] at h
      obtain ⟨-, rfl⟩ := h
      exact constrLoop_ok hp h0.symm h1

theorem setBound_ok {lo hi : D} {name : Token} {p q : PProblem} (hp : ParsedOk p)
    (h : p.setBound lo hi name = .ok (some q)) : ParsedOk q := by
  unfold PProblem.setBound at h
  split at h
  · cases h
  · simp only [pm_bind_eq_ok] at h
    obtain ⟨x, -, y, -, h⟩ := h
    simp only [Except.ok.injEq, Option.some.injEq] at h
    subst h
    exact hp.setValues (by simp)

theorem boundLoop_ok : ∀ {k : Nat} {s s2 : σ} {p q : PProblem}, ParsedOk p →
    boundLoop src scan k s p = .ok (s2, q) → ParsedOk q := by
  intro k
  induction k with
  | zero => intro s s2 p q hp h; cases h
  | succ k ih =>
    intro s s2 p q hp h
    unfold boundLoop at h
    split at h
    · simp only [Except.ok.injEq, Prod.mk.injEq] at h
      obtain ⟨-, rfl⟩ := h
      exact hp
    · simp only [pm_bind_eq_ok, orStop_eq_ok] at h
      obtain ⟨b, -, b1, -, p1, h1, p2, rfl, s1, -, h⟩ := h
      exact ih (setBound_ok hp h1) h

theorem setBoolean_ok (p : PProblem) (t : Token) (q : PProblem) (hp : ParsedOk p)
    (h : p.setBoolean t = some q) : ParsedOk q := by
  unfold PProblem.setBoolean at h
  split at h
  · cases h
  · simp only [Option.some.injEq] at h; subst h; exact hp.setValues (by simp)

theorem setInteger_ok (p : PProblem) (t : Token) (q : PProblem) (hp : ParsedOk p)
    (h : p.setInteger t = some q) : ParsedOk q := by
  unfold PProblem.setInteger at h
  split at h
  · cases h
  · simp only [Option.some.injEq] at h; subst h; exact hp.setValues (by simp)

theorem typeLoop_ok {set : PProblem → Token → Option PProblem}
    (hset : ∀ p t q, ParsedOk p → set p t = some q → ParsedOk q) {tag : Tag} :
    ∀ {k : Nat} {s s2 : σ} {p q : PProblem}, ParsedOk p →
    typeLoop src set tag k s p = .ok (s2, q) → ParsedOk q := by
  intro k
  induction k with
  | zero => intro s s2 p q hp h; cases h
  | succ k ih =>
    intro s s2 p q hp h
    unfold typeLoop at h
    split at h
    · simp only [Except.ok.injEq, Prod.mk.injEq] at h
      obtain ⟨-, rfl⟩ := h
      exact hp
    · simp only [pm_bind_eq_ok, orStop_eq_ok] at h
      obtain ⟨p1, h1, s1, -, h⟩ := h
      exact ih (hset _ _ _ hp h1) h

theorem section_ok {ws : List Token} {f : σ → PM (σ × PProblem)} {s s2 : σ} {p q : PProblem}
    (hp : ParsedOk p) (hf : ∀ s s2 q, f s = .ok (s2, q) → ParsedOk q)
    (h : (if readSection ws (src.tok s 0) (src.tok s 1) = 0 then .ok (s, p)
        else popFront src s (readSection ws (src.tok s 0) (src.tok s 1)) >>= f) = .ok (s2, q)) :
    ParsedOk q := by
  split at h
  · simp only [Except.ok.injEq, Prod.mk.injEq] at h
    obtain ⟨-, rfl⟩ := h
    exact hp
  · rw [pm_bind_eq_ok] at h
    obtain ⟨s1, -, h⟩ := h
    exact hf _ _ _ h

theorem parsedOk_nil (t : ObjType) : ParsedOk { ({} : PProblem) with type := t } := by
  constructor <;> simp [PProblem.constraints]

theorem readHead_ok {s s2 : σ} {q : PProblem} (h : readHead src s {} = .ok (s2, q)) :
    ∃ t, q = { ({} : PProblem) with type := t } := by
  unfold readHead at h
  simp only [pm_bind_eq_ok] at h
  obtain ⟨t, -, s1, -, h⟩ := h
  split at h
  · simp only [Except.ok.injEq, Prod.mk.injEq] at h
    exact ⟨t, h.2.symm⟩
  · rw [pm_bind_eq_ok] at h
    obtain ⟨s3, -, h⟩ := h
    simp only [Except.ok.injEq, Prod.mk.injEq] at h
    exact ⟨t, h.2.symm⟩

theorem parse_ok {k : Nat} {s : σ} {q : PProblem} (h : parse src scan k s = .ok q) :
    ParsedOk q := by
  unfold parse at h
  simp only [pm_bind_eq_ok] at h
  obtain ⟨⟨s1, p1⟩, h1, ⟨s2, p2⟩, h2, ⟨s3, p3⟩, h3, ⟨s4, p4⟩, h4, ⟨s5, p5⟩, h5, ⟨s6, p6⟩, h6,
    u, -, h⟩ := h
  simp only [Except.ok.injEq] at h
  subst h
  obtain ⟨t, rfl⟩ := readHead_ok h1
  have k2 := objLoop_ok (parsedOk_nil t) h2
  have k3 := readConstraints_ok k2.1 k2.2 h3
  have k4 := section_ok k3 (fun _ _ _ h => boundLoop_ok k3 h) h4
  have k5 := section_ok k4 (fun _ _ _ h => typeLoop_ok setBoolean_ok k4 h) h5
  exact section_ok k5 (fun _ _ _ h => typeLoop_ok setInteger_ok k5 h) h6

end

end Bx.Parser
