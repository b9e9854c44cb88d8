import Verif.Model.PreprocessedFile
import Verif.Spec.ByName
import Verif.Props.Writer
import Verif.Props.Parser
import Verif.Props.Preprocess

/-!
# C123: the file `preprocessed.lp`, and what C41 says of the solutions
-/

namespace Bx.Parser

open Params (D)
open Spec (byName lhs Satisfies IsSolution RespectsFixed objective)

/-! ## The same solutions -/

/-- The value that a term gives. -/
def termValue {α : Type} [Zero α] (v : String → Bool) (t : α × Option Token) : α :=
  if (t.2.map fun n => v (String.ofList n)).getD false then t.1 else 0

theorem byName_eq (v : String → Bool) (names : List Token) (i : Nat) :
    byName v (names.map String.ofList) i
      = ((names[i]?).map fun n => v (String.ofList n)).getD false := by
  unfold byName
  rw [List.getElem?_map, Option.map_map]
  rfl

theorem lhs_terms (p : PProblem) (v : String → Bool) (l : List FunElem) :
    lhs (byName v (p.names.map String.ofList)) l = ((p.conTerms l).map (termValue v)).sum := by
  unfold lhs PProblem.conTerms
  rw [List.map_map]
  congr 1
  refine List.map_congr_left fun e _ => ?_
  simp only [byName_eq, Function.comp_apply, termValue]

theorem lhs_nonzero (x : Spec.Assign) (l : List FunElem) :
    lhs x (l.filter fun e => e.factor ≠ 0) = lhs x l := by
  unfold lhs
  induction l with
  | nil => rfl
  | cons e l ih =>
    by_cases h : e.factor = 0
    · rw [List.filter_cons_of_neg (by simp [h]), ih]; simp [h]
    · rw [List.filter_cons_of_pos (by simp [h])]
      simp only [List.map_cons, List.sum_cons, ih]

theorem SameConstr.lhs {p q : PProblem} {c d : Constr} (h : SameConstr p q c d) (v : String → Bool) :
    lhs (byName v (q.names.map String.ofList)) d.elems
      = Spec.lhs (byName v (p.names.map String.ofList)) c.elems := by
  rw [lhs_terms, h.terms, ← lhs_terms, lhs_nonzero]

theorem forall2_all {α β : Type} {R : α → β → Prop} {P : α → Prop} {Q : β → Prop}
    (hR : ∀ a b, R a b → (P a ↔ Q b)) {l : List α} {m : List β} (h : List.Forall₂ R l m) :
    (∀ b ∈ m, Q b) ↔ ∀ a ∈ l, P a := by
  induction h with
  | nil => simp
  | cons h _ ih => simp only [List.forall_mem_cons, ih, hR _ _ h]

theorem SameProblem.satisfies {p q : PProblem} (h : SameProblem p q) (v : String → Bool) :
    Satisfies q.eqs q.ges q.les (byName v (q.names.map String.ofList)) ↔
      Satisfies p.eqs p.ges p.les (byName v (p.names.map String.ofList)) := by
  unfold Satisfies
  refine and_congr ?_ (and_congr ?_ ?_)
  · exact forall2_all (fun c d hc => by rw [hc.lhs v, hc.value]) h.eqs
  · exact forall2_all (fun c d hc => by rw [hc.lhs v, hc.value]) h.ges
  · exact forall2_all (fun c d hc => by rw [hc.lhs v, hc.value]) h.les

theorem fixed_iff (v : String → Bool) : ∀ {names : List Token} {values : List VarValue},
    names.length = values.length → (RespectsFixed values (byName v (names.map String.ofList)) ↔
      ∀ x ∈ names.zip values, x.2.min = x.2.max → v (String.ofList x.1) = decide (x.2.max ≠ 0)) := by
  intro names values hl
  unfold RespectsFixed
  constructor
  · intro h x hx hm
    obtain ⟨i, hi⟩ := List.getElem?_of_mem hx
    rw [List.getElem?_zip_eq_some] at hi
    have := h i x.2 hi.2 hm
    rwa [byName_eq, hi.1] at this
  · intro h i w hw hm
    have hi := (List.getElem?_eq_some_iff.mp hw).1
    rw [byName_eq, List.getElem?_eq_getElem (by omega)]
    refine h (names[i]'(by omega), w) ?_ hm
    refine List.mem_of_getElem? (i := i) ?_
    rw [List.getElem?_zip_eq_some]
    exact ⟨List.getElem?_eq_getElem (by omega), hw⟩

/-- The terms with a finite factor. -/
def objValue (v : String → Bool) (t : D × Option Token) : Rat :=
  if (t.2.map fun n => v (String.ofList n)).getD false then (finite t.1).getD 0 else 0

theorem toRaw_objective {p : PProblem} {pb : RawProblem} (h : p.toRaw = some pb) (v : String → Bool)
    (hq : p.qelems = []) : pb.objective.qelems = [] ∧ finite p.value = some pb.objective.value ∧
    objective pb.objective (byName v pb.names) =
      pb.objective.value + ((p.objTerms p.elems).map (objValue v)).sum := by
  unfold PProblem.toRaw at h
  simp only [Option.bind_eq_bind, Option.bind_eq_some_iff, Option.some.injEq] at h
  obtain ⟨es, he, qs, hqs, w, hw, rfl⟩ := h
  rw [hq] at hqs
  cases hqs
  refine ⟨rfl, hw, ?_⟩
  show w + _ + 0 = w + _
  rw [add_zero]
  congr 1
  have fe := mapM_option he
  clear he hw hq
  unfold PProblem.objTerms
  rw [List.map_map]
  generalize p.elems = l at fe ⊢
  induction fe with
  | nil => rfl
  | cons h _ ih =>
    simp only [Option.map_eq_some_iff] at h
    obtain ⟨f, hf, rfl⟩ := h
    rw [List.map_cons, List.map_cons, List.sum_cons, List.sum_cons, ih]
    congr 1
    simp only [Function.comp_apply, objValue, byName_eq, hf, Option.getD_some]

theorem objValue_zero (v : String → Bool) (p : PProblem) (l : List PElem) :
    ((p.objTerms (l.filter fun e => e.factor ≠ .fin 0)).map (objValue v)).sum =
      ((p.objTerms l).map (objValue v)).sum := by
  unfold PProblem.objTerms
  induction l with
  | nil => rfl
  | cons e l ih =>
    by_cases h : e.factor = .fin 0
    · rw [List.filter_cons_of_neg (by simp [h]), ih]
      simp [objValue, h, finite]
    · rw [List.filter_cons_of_pos (by simp [h])]
      simp only [List.map_cons, List.sum_cons, ih]

theorem toRaw_fields {p : PProblem} {pb : RawProblem} (h : p.toRaw = some pb) :
    pb.type = p.type ∧ pb.eqs = p.eqs ∧ pb.ges = p.ges ∧ pb.les = p.les ∧
    pb.names = p.names.map String.ofList ∧ pb.values = p.values := by
  unfold PProblem.toRaw at h
  simp only [Option.bind_eq_bind, Option.bind_eq_some_iff, Option.some.injEq] at h
  obtain ⟨_, _, _, _, _, _, rfl⟩ := h
  exact ⟨rfl, rfl, rfl, rfl, rfl, rfl⟩

/-- Two problems that are the same have the same solutions, of the same value, by name. -/
theorem SameProblem.solutions {p q : PProblem} (h : SameProblem p q) {pb qb : RawProblem}
    (hp : p.toRaw = some pb) (hq : q.toRaw = some qb) (lp : p.names.length = p.values.length)
    (lq : q.names.length = q.values.length) (v : String → Bool) :
    (IsSolution qb (byName v qb.names) ↔ IsSolution pb (byName v pb.names)) ∧
    objective qb.objective (byName v qb.names) = objective pb.objective (byName v pb.names) := by
  obtain ⟨p1, p2, p3, p4, p5, p6⟩ := toRaw_fields hp
  obtain ⟨q1, q2, q3, q4, q5, q6⟩ := toRaw_fields hq
  constructor
  · unfold IsSolution
    rw [p2, p3, p4, p5, p6, q2, q3, q4, q5, q6, h.satisfies v, fixed_iff v lp, fixed_iff v lq]
    exact and_congr_right fun _ => ⟨fun g x hx => g x (h.vars.mem_iff.mpr hx),
      fun g x hx => g x (h.vars.mem_iff.mp hx)⟩
  · obtain ⟨-, a2, a3⟩ := toRaw_objective hp v h.quad.1
    obtain ⟨-, b2, b3⟩ := toRaw_objective hq v h.quad.2
    rw [a3, b3, h.obj, objValue_zero]
    rw [h.value, a2] at b2
    rw [Option.some.inj b2]

theorem mapM_some {α β : Type} {f : α → Option β} : ∀ {l : List α}, (∀ a ∈ l, (f a).isSome) →
    (l.mapM f).isSome
  | [], _ => rfl
  | a :: l, h => by
    obtain ⟨b, hb⟩ := Option.isSome_iff_exists.mp (h a (by simp))
    obtain ⟨bs, hbs⟩ := Option.isSome_iff_exists.mp (mapM_some (l := l) fun a ha => h a (by simp [ha]))
    rw [List.mapM_cons, hb, hbs]
    rfl

/-- The numbers of the problem that is read are finite. -/
theorem SameProblem.toRaw {p q : PProblem} (h : SameProblem p q) {pb : RawProblem}
    (hp : p.toRaw = some pb) : ∃ qb, q.toRaw = some qb := by
  have hv := (toRaw_objective hp (fun _ => false) h.quad.1).2.1
  have hfin : ∀ e ∈ p.elems, (finite e.factor).isSome := by
    unfold PProblem.toRaw at hp
    simp only [Option.bind_eq_bind, Option.bind_eq_some_iff, Option.some.injEq] at hp
    obtain ⟨es, he, -⟩ := hp
    have fe := mapM_option he
    clear he
    generalize p.elems = l at fe ⊢
    intro e hee
    induction fe with
    | nil => cases hee
    | cons hx _ ih =>
      rcases List.mem_cons.mp hee with rfl | hee
      · simp only [Option.map_eq_some_iff] at hx
        obtain ⟨f, hf, _⟩ := hx
        rw [hf]; rfl
      · exact ih hee
  have hq : ∀ e ∈ q.elems, (finite e.factor).isSome := by
    intro e he
    have hm : (e.factor, q.names[e.var]?) ∈ q.objTerms q.elems := List.mem_map.mpr ⟨e, he, rfl⟩
    rw [h.obj] at hm
    obtain ⟨e', he', heq⟩ := List.mem_map.mp hm
    have := hfin e' (List.mem_filter.mp he').1
    rw [show e'.factor = e.factor from congrArg Prod.fst heq] at this
    exact this
  unfold PProblem.toRaw
  rw [h.quad.2, h.value, hv]
  obtain ⟨es, hes⟩ := Option.isSome_iff_exists.mp (mapM_some (l := q.elems)
    (f := fun e => (finite e.factor).map fun f => (⟨f, e.var⟩ : ObjElem)) (fun e he => by
      rw [Option.isSome_map]; exact hq e he))
  rw [hes]
  exact ⟨_, rfl⟩

/-- C41 (partial): the problem that is read from what was written has the same solutions, and they have
the same value.  A solution is known by the names of the variables.  Missing: see
`C41_round_trip_partial`. -/
theorem C41_same_solutions_partial (scan : Token → Option D) (num : Rat → List Char) (p : PProblem)
    (hs : ∀ t, Reserved t → scan t = none) (hd : ReadsInts scan) (hw : Writable scan num p)
    (pb : RawProblem) (hp : p.toRaw = some pb) :
    ∃ text q qb, writeProblem num p = .ok text ∧
      (∀ fuel, (tokensOf text).length < fuel → makeProblem scan fuel text = .ok q) ∧
      q.toRaw = some qb ∧ qb.type = pb.type ∧ qb.names.Perm pb.names ∧
      ∀ v : String → Bool,
        (IsSolution qb (byName v qb.names) ↔ IsSolution pb (byName v pb.names)) ∧
        objective qb.objective (byName v qb.names) = objective pb.objective (byName v pb.names) := by
  obtain ⟨text, q, h1, h2, h3⟩ := C41_round_trip_partial scan num p hs hd hw
  obtain ⟨qb, hq⟩ := h3.toRaw hp
  have ok := parse_ok (h2 _ (Nat.lt_succ_self _))
  obtain ⟨p1, -, -, -, p5, -⟩ := toRaw_fields hp
  obtain ⟨q1, -, -, -, q5, -⟩ := toRaw_fields hq
  refine ⟨text, q, qb, h1, h2, hq, by rw [q1, p1, h3.type], ?_,
    fun v => h3.solutions hp hq hw.names_len ok.names_len v⟩
  rw [q5, p5]
  exact h3.names.map _

end Bx.Parser

namespace Bx.Preprocess

open Spec (byName lhs Satisfies IsSolution RespectsFixed objective WellFormedRaw Names pairsOf Restricts
  AtLeastAsGood)
open Parser (PProblem Token Writable NumText makeProblem writeProblem tokensOf Reserved ReadsInts intMax
  NameOk PlainFirst LikeNumber)
open Params (D)

/-- A raw problem as the writer takes it. -/
def rawToWriter (pb : RawProblem) : PProblem := toWriter (ProblemType.ofRaw pb)

theorem toWriter_toRaw (p : Problem) : (toWriter p).toRaw = some
    { type := p.type, objective := p.objective, eqs := p.eqs, ges := p.ges, les := p.les,
      names := p.names, values := p.values } := by
  unfold PProblem.toRaw toWriter
  have h1 : ∀ l : List ObjElem, (l.map fun e => (⟨.fin e.factor, e.var⟩ : Parser.PElem)).mapM
      (fun e => (Parser.finite e.factor).map fun q => (⟨q, e.var⟩ : ObjElem)) = some l := by
    intro l
    induction l with
    | nil => rfl
    | cons e l ih => rw [List.map_cons, List.mapM_cons, ih]; rfl
  have h2 : ∀ l : List QuadElem, (l.map fun e => (⟨.fin e.factor, e.a, e.b⟩ : Parser.PQuad)).mapM
      (fun e => (Parser.finite e.factor).map fun q => (⟨q, e.a, e.b⟩ : QuadElem)) = some l := by
    intro l
    induction l with
    | nil => rfl
    | cons e l ih => rw [List.map_cons, List.mapM_cons, ih]; rfl
  have h3 : Parser.finite (D.fin p.objective.value) = some p.objective.value := rfl
  simp only [h1, h2, h3, Option.bind_eq_bind, Option.bind_some, List.map_map]
  have : (String.ofList ∘ String.toList) = id := by funext s; simp
  rw [this, List.map_id]

/-- What is read, in the form of the other parts of the library, is written as it was read. -/
theorem rawToWriter_of_read {p : PProblem} {pb : RawProblem} (h : p.toRaw = some pb) :
    rawToWriter pb = p := by
  unfold PProblem.toRaw at h
  simp only [Option.bind_eq_bind, Option.bind_eq_some_iff, Option.some.injEq] at h
  obtain ⟨es, he, qs, hq, v, hv, rfl⟩ := h
  have f1 := Parser.mapM_option he
  have f2 := Parser.mapM_option hq
  have fin : ∀ {d : D} {q : Rat}, Parser.finite d = some q → D.fin q = d := by
    intro d q h; cases d <;> simp [Parser.finite] at h; rw [h]
  have e1 : es.map (fun e => (⟨.fin e.factor, e.var⟩ : Parser.PElem)) = p.elems := by
    generalize p.elems = l at f1
    clear he
    induction f1 with
    | nil => rfl
    | cons h _ ih =>
      simp only [Option.map_eq_some_iff] at h
      obtain ⟨q, hq, rfl⟩ := h
      rw [List.map_cons, ih, fin hq]
  have e2 : qs.map (fun e => (⟨.fin e.factor, e.a, e.b⟩ : Parser.PQuad)) = p.qelems := by
    generalize p.qelems = l at f2
    clear hq
    induction f2 with
    | nil => rfl
    | cons h _ ih =>
      simp only [Option.map_eq_some_iff] at h
      obtain ⟨q, hq, rfl⟩ := h
      rw [List.map_cons, ih, fin hq]
  have e3 : (String.toList ∘ String.ofList) = id := by funext s; simp
  obtain ⟨_, _, _, _, _, _, _, _, _⟩ := p
  simp only at e1 e2 hv
  simp only [rawToWriter, toWriter, ProblemType.ofRaw, e1, e2, fin hv, List.map_map, e3, List.map_id]

theorem wf_of_writable {scan : Token → Option D} {num : Rat → List Char} {pb : RawProblem}
    (hw : Writable scan num (rawToWriter pb)) : WellFormedRaw pb := by
  have hl : pb.names.length = pb.values.length := by
    have := hw.names_len
    simpa [rawToWriter, toWriter, ProblemType.ofRaw] using this
  have hn : (rawToWriter pb).names.length = pb.values.length := by
    rw [← hl]; simp [rawToWriter, toWriter, ProblemType.ofRaw]
  have hlt := hw.con_lt
  have hnd := hw.con_nodup
  have ho := hw.obj_lt
  have hon := hw.obj_nodup
  rw [hn] at hlt ho
  have hq : pb.objective.qelems = [] := by
    have := hw.quad
    simpa [rawToWriter, toWriter, ProblemType.ofRaw] using this
  have hm : ∀ c, (c ∈ pb.eqs → c ∈ (rawToWriter pb).constraints) ∧
      (c ∈ pb.ges → c ∈ (rawToWriter pb).constraints) ∧
      (c ∈ pb.les → c ∈ (rawToWriter pb).constraints) := by
    intro c
    simp only [rawToWriter, toWriter, ProblemType.ofRaw, PProblem.constraints, List.mem_append]
    exact ⟨fun h => .inl (.inl h), fun h => .inl (.inr h), .inr⟩
  refine ⟨⟨fun c hc => hlt c ((hm c).1 hc), fun c hc => hlt c ((hm c).2.1 hc),
    fun c hc => hlt c ((hm c).2.2 hc), ?_, ?_, fun c hc => hnd c ((hm c).1 hc),
    fun c hc => hnd c ((hm c).2.1 hc), fun c hc => hnd c ((hm c).2.2 hc), ?_⟩, hl, ?_⟩
  · intro e he
    exact ho ⟨.fin e.factor, e.var⟩ (List.mem_map.mpr ⟨e, he, rfl⟩)
  · rw [hq]; simp
  · simpa [rawToWriter, toWriter, ProblemType.ofRaw, Function.comp_def] using hon
  · have := hw.names_nodup
    exact List.Nodup.of_map _ this

/-- What is left of a problem that can be written can be written. -/
theorem writable_reduced {scan : Token → Option D} {num : Rat → List Char} {pb : RawProblem}
    (hw : Writable scan num (rawToWriter pb))
    (hf : ∀ c ∈ pb.eqs ++ pb.ges ++ pb.les, ∀ e ∈ c.elems, e.factor ≠ 0)
    (hb : ∀ c ∈ pb.eqs ++ pb.ges ++ pb.les, |c.value| + (c.elems.map fun e => |e.factor|).sum ≤ intMax)
    {red : Problem} (h : preprocess pb = .ok red) (hne : red.names ≠ [])
    (hv : red.objective.value ≠ 0 →
      NumText scan (num |red.objective.value|) |red.objective.value|) :
    Writable scan num (toWriter red) := by
  have wf := wf_of_writable hw
  have hq : pb.objective.qelems = [] := by
    have := hw.quad
    simpa [rawToWriter, toWriter, ProblemType.ofRaw] using this
  obtain ⟨c1, c2, c3, c4, c5, c6, c7, c8, c9⟩ := C04_variables_partitioned pb wf red h
  obtain ⟨u1, -⟩ := C04_kept_variables_are_used pb wf red h
  obtain ⟨st, V0, mo, hfin, hno, _, hmo, hs⟩ := ok_cases wf h
  have hobj : red.objective = redObj (start pb) st.vars := by
    have ho := hs.obj
    rw [hmo hq, objCopy_linear (start pb) _ (start pb).values.length hq wf.wf.obj_lt] at ho
    exact (Except.ok.inj ho).symm
  have hcs : ∀ c, c ∈ red.eqs ++ red.ges ++ red.les → ∃ k i c', (csts (start pb) k)[i]? = some c' ∧
      c' ∈ pb.eqs ++ pb.ges ++ pb.les ∧ 1 < st.cnt k i ∧ c = redCst st.vars c' := by
    intro c hc
    simp only [List.mem_append] at hc
    rcases hc with (hc | hc) | hc
    · rw [hs.eqs] at hc
      obtain ⟨i, c', h1, h2, h3⟩ := mem_redCsts.mp hc
      have : c' ∈ pb.eqs := List.mem_of_getElem? h1
      exact ⟨.eq, i, c', h1, by simp [this], h2, h3⟩
    · rw [hs.ges] at hc
      obtain ⟨i, c', h1, h2, h3⟩ := mem_redCsts.mp hc
      have : c' ∈ pb.ges := List.mem_of_getElem? h1
      exact ⟨.ge, i, c', h1, by simp [this], h2, h3⟩
    · rw [hs.les] at hc
      obtain ⟨i, c', h1, h2, h3⟩ := mem_redCsts.mp hc
      have : c' ∈ pb.les := List.mem_of_getElem? h1
      exact ⟨.le, i, c', h1, by simp [this], h2, h3⟩
  have hfac : ∀ c ∈ red.eqs ++ red.ges ++ red.les, ∀ e ∈ c.elems, e.factor ≠ 0 := by
    intro c hc e he
    obtain ⟨k, i, c', h1, h2, h3, rfl⟩ := hcs c hc
    simp only [redCst, List.mem_map] at he
    obtain ⟨e', he', rfl⟩ := he
    exact hf c' h2 e' (List.mem_filter.mp he').1
  have hsum : ∀ (V : List (Nat × Bool)) (es : List FunElem),
      ((unknown V es).map fun e => |e.factor|).sum ≤ (es.map fun e => |e.factor|).sum ∧
      |knownSum V es| ≤ (es.map fun e => |e.factor|).sum := by
    intro V es
    induction es with
    | nil => simp [unknown, knownSum]
    | cons e es ih =>
      obtain ⟨i1, i2⟩ := ih
      constructor
      · unfold unknown at i1 ⊢
        rw [List.filter_cons]
        split
        · rw [List.map_cons, List.map_cons, List.sum_cons, List.sum_cons]
          omega
        · rw [List.map_cons, List.sum_cons]
          have := abs_nonneg e.factor
          omega
      · unfold knownSum at i2 ⊢
        rw [List.map_cons, List.map_cons, List.sum_cons, List.sum_cons]
        refine (abs_add_le _ _).trans (add_le_add ?_ i2)
        split
        · exact le_refl _
        · simp
  have hsub := c2
  have hmemn : ∀ n ∈ red.names, n ∈ pb.names := fun n hn => hsub.subset hn
  have hk : (toWriter red).constraints = red.eqs ++ red.ges ++ red.les := rfl
  have hkp : (rawToWriter pb).constraints = pb.eqs ++ pb.ges ++ pb.les := rfl
  have hln : (toWriter red).names.length = red.names.length := by simp [toWriter]
  refine
    { names_len := ?_, names_nodup := ?_, names_some := ?_, names_few := ?_, names := ?_,
      obj_lt := ?_, obj_nodup := ?_, obj := ?_, quad := ?_, value := ?_, con_few := ?_, con_lt := ?_,
      con_nodup := ?_, con_some := ?_, con_sum := ?_, con_value := ?_, labels := ?_, used := ?_,
      bounds := ?_ }
  · rw [hln]; exact c4
  · exact List.Nodup.map (fun a b h => String.toList_injective h) (wf.names_nodup.sublist hsub)
  · simpa [toWriter] using hne
  · have h1 := hw.names_few
    have h2 := hsub.length_le
    simp only [rawToWriter, toWriter, ProblemType.ofRaw, List.length_map] at h1 ⊢
    omega
  · intro n hn
    obtain ⟨m, hm, rfl⟩ := List.mem_map.mp hn
    exact hw.names _ (List.mem_map.mpr ⟨m, hmemn m hm, rfl⟩)
  · intro e he
    obtain ⟨e', he', rfl⟩ := List.mem_map.mp he
    rw [hln]
    exact c8 e' he'
  · have : (toWriter red).elems.map Parser.PElem.var = red.objective.elems.map ObjElem.var := by
      simp [toWriter, Function.comp_def]
    rw [this, hobj]
    simp only [redObj, List.map_map]
    have h1 : ((pb.objective.elems.filter fun e => (st.vars.lookup e.var).isNone).map
        ObjElem.var).Nodup := wf.wf.obj_nodup.sublist (List.Sublist.map _ List.filter_sublist)
    show ((pb.objective.elems.filter fun e => (st.vars.lookup e.var).isNone).map
      (newIdx st.vars ∘ ObjElem.var)).Nodup
    rw [← List.map_map]
    refine List.Nodup.map_on ?_ h1
    intro a ha b hb hab
    obtain ⟨ea, hea, rfl⟩ := List.mem_map.mp ha
    obtain ⟨eb, heb, rfl⟩ := List.mem_map.mp hb
    rw [List.mem_filter] at hea heb
    have k1 := keptIdx_get st.vars (wf.wf.obj_lt ea hea.1) (by simpa using hea.2)
    have k2 := keptIdx_get st.vars (wf.wf.obj_lt eb heb.1) (by simpa using heb.2)
    rw [hab, k2] at k1
    exact (Option.some.inj k1).symm
  · intro e he
    obtain ⟨e', he', rfl⟩ := List.mem_map.mp he
    rw [hobj] at he'
    obtain ⟨e0, he0, rfl⟩ := List.mem_map.mp he'
    exact hw.obj ⟨.fin e0.factor, e0.var⟩ (List.mem_map.mpr ⟨e0, (List.mem_filter.mp he0).1, rfl⟩)
  · show red.objective.qelems.map _ = []
    rw [hobj]; rfl
  · exact ⟨_, rfl, hv⟩
  · have hl : ∀ k (cs : List Constr), (redCsts st k cs).length ≤ cs.length := by
      intro k cs
      unfold redCsts
      rw [List.length_map]
      exact (List.length_filter_le _ _).trans (by simp)
    have h1 := hw.con_few
    rw [hkp] at h1
    rw [hk, hs.eqs, hs.ges, hs.les]
    have a1 := hl .eq pb.eqs
    have a2 := hl .ge pb.ges
    have a3 := hl .le pb.les
    simp only [List.length_append] at h1 ⊢
    show ((((redCsts st .eq pb.eqs).length + (redCsts st .ge pb.ges).length) +
      (redCsts st .le pb.les).length : Nat) : Int) ≤ _
    omega
  · intro c hc
    rw [hln]
    exact (c7 c hc).1
  · exact fun c hc => (c7 c hc).2
  · intro c hc
    obtain ⟨k, i, c', h1, h2, h3, h4⟩ := hcs c hc
    have h5 := hfin.cnt k i c' h1 (by omega)
    have h6 : c.elems ≠ [] := by
      rw [h4]
      simp only [redCst, ne_eq, List.map_eq_nil_iff]
      intro h0
      rw [h0] at h5
      simp at h5
      omega
    obtain ⟨e, l, he⟩ := List.exists_cons_of_ne_nil h6
    exact ⟨e, by simp [he], hfac c hc e (by simp [he])⟩
  · intro c hc
    obtain ⟨k, i, c', h1, h2, h3, rfl⟩ := hcs c hc
    have h5 := (hsum st.vars c'.elems).1
    have h6 := hb c' h2
    have h7 := abs_nonneg c'.value
    simp only [redCst, List.map_map]
    show ((unknown st.vars c'.elems).map fun e => |e.factor|).sum ≤ _
    omega
  · intro c hc
    obtain ⟨k, i, c', h1, h2, h3, rfl⟩ := hcs c hc
    have h5 := (hsum st.vars c'.elems).2
    have h6 := hb c' h2
    show |c'.value - knownSum st.vars c'.elems| ≤ _
    have h7 := abs_sub c'.value (knownSum st.vars c'.elems)
    omega
  · intro c hc
    obtain ⟨k, i, c', h1, h2, h3, rfl⟩ := hcs c hc
    exact hw.labels c' h2
  · intro j hj
    rw [hln] at hj
    obtain ⟨c, hc, e, he, hej⟩ := u1 j hj
    exact .inr ⟨c, hc, e, he, hej, hfac c hc e he⟩
  · intro x hx
    obtain ⟨j, hj⟩ := List.getElem?_of_mem hx
    rw [List.getElem?_zip_eq_some] at hj
    obtain ⟨hj1, hj2⟩ := hj
    simp only [toWriter, List.getElem?_map, Option.map_eq_some_iff] at hj1
    obtain ⟨n, hn, hnx⟩ := hj1
    obtain ⟨i, hi⟩ := List.getElem?_of_mem (hmemn n (List.mem_of_getElem? hn))
    have hval := c5 i j n hi hn
    refine hw.bounds x (List.mem_of_getElem? (i := i) ?_)
    rw [List.getElem?_zip_eq_some]
    refine ⟨?_, ?_⟩
    · simp only [rawToWriter, toWriter, ProblemType.ofRaw, List.getElem?_map, hi, Option.map_some, hnx]
    · show pb.values[i]? = _
      rw [← hval]; exact hj2

end Bx.Preprocess

namespace Bx.Preprocess

open Spec (byName lhs Satisfies IsSolution RespectsFixed objective WellFormedRaw Names pairsOf Restricts
  AtLeastAsGood)
open Parser (PProblem Token Writable NumText writeProblem tokensOf Reserved ReadsInts intMax)
open Params (D)

/-! ## Writing does no harm -/

theorem nameAt_lt {p : PProblem} {i : Nat} (h : i < p.names.length) : ∃ n, p.nameAt i = .ok n := by
  unfold PProblem.nameAt
  rw [List.getElem?_eq_getElem h]
  exact ⟨_, rfl⟩

theorem writeElement_ok {p : PProblem} {neg pos : Bool} {text : List Char} {i : Nat}
    (h : i < p.names.length) : ∃ t, Parser.writeElement p neg pos text i = .ok t := by
  obtain ⟨n, hn⟩ := nameAt_lt h
  unfold Parser.writeElement
  rw [hn]
  split
  · exact ⟨_, rfl⟩
  · split <;> exact ⟨_, rfl⟩

theorem writeObjective_ok {num : Rat → List Char} {p : PProblem} : ∀ {l : List Parser.PElem},
    (∀ e ∈ l, e.var < p.names.length) → ∃ t, Parser.writeObjective num p l = .ok t
  | [], _ => ⟨_, rfl⟩
  | e :: l, h => by
    obtain ⟨a, ha⟩ := writeElement_ok (p := p) (neg := Parser.isNeg e.factor)
      (pos := Parser.isPos e.factor) (text := Parser.doubleText num e.factor) (h e (by simp))
    obtain ⟨b, hb⟩ := writeObjective_ok (num := num) (p := p) (l := l) fun e he => h e (by simp [he])
    exact ⟨a ++ b, by unfold Parser.writeObjective; rw [ha, hb]; rfl⟩

theorem writeFunction_ok {p : PProblem} : ∀ {l : List FunElem},
    (∀ e ∈ l, e.var < p.names.length) → ∃ t, Parser.writeFunction p l = .ok t
  | [], _ => ⟨_, rfl⟩
  | e :: l, h => by
    obtain ⟨a, ha⟩ := writeElement_ok (p := p) (neg := decide (e.factor < 0))
      (pos := decide (0 < e.factor)) (text := Parser.intText e.factor) (h e (by simp))
    obtain ⟨b, hb⟩ := writeFunction_ok (p := p) (l := l) fun e he => h e (by simp [he])
    exact ⟨a ++ b, by unfold Parser.writeFunction; rw [ha, hb]; rfl⟩

theorem writeQuads_ok {num : Rat → List Char} {p : PProblem} : ∀ {l : List Parser.PQuad},
    (∀ e ∈ l, e.a < p.names.length ∧ e.b < p.names.length) →
    ∃ t, Parser.writeQuads num p l = .ok t
  | [], _ => ⟨_, rfl⟩
  | e :: l, h => by
    obtain ⟨a, ha⟩ := nameAt_lt (h e (by simp)).1
    obtain ⟨b, hb⟩ := nameAt_lt (h e (by simp)).2
    obtain ⟨r, hr⟩ := writeQuads_ok (num := num) (p := p) (l := l) fun e he => h e (by simp [he])
    unfold Parser.writeQuads
    dsimp only
    rw [ha, hb, hr]
    simp only [ok_bind]
    split <;> exact ⟨_, rfl⟩

theorem writeList_ok {p : PProblem} {sep : String} : ∀ {l : List Constr},
    (∀ c ∈ l, ∀ e ∈ c.elems, e.var < p.names.length) → ∃ t, Parser.writeList p sep l = .ok t
  | [], _ => ⟨_, rfl⟩
  | c :: l, h => by
    obtain ⟨a, ha⟩ := writeFunction_ok (p := p) (l := c.elems) (h c (by simp))
    obtain ⟨b, hb⟩ := writeList_ok (p := p) (sep := sep) (l := l) fun c hc => h c (by simp [hc])
    unfold Parser.writeList Parser.writeConstraint
    rw [ha, hb]
    exact ⟨_, rfl⟩

theorem forVars_ok {f : Token → VarValue → List Char} : ∀ {names : List Token} {values : List VarValue},
    names.length ≤ values.length → ∃ t, Parser.forVars f names values = .ok t
  | [], _, _ => ⟨[], by unfold Parser.forVars; rfl⟩
  | x :: xs, v :: vs, h => by
    obtain ⟨r, hr⟩ := forVars_ok (f := f) (names := xs) (values := vs) (by simpa using h)
    exact ⟨_, by unfold Parser.forVars; rw [hr]; rfl⟩
  | _ :: _, [], h => by simp at h

theorem writeType_ok {have' : Bool} {head : String} {t : VarType} {p : PProblem}
    (h : p.names.length ≤ p.values.length) : ∃ r, Parser.writeType have' head t p = .ok r := by
  unfold Parser.writeType
  split
  · obtain ⟨r, hr⟩ := forVars_ok (f := fun x v => if v.type = t then ' ' :: x ++ ['\n'] else []) h
    rw [hr]; exact ⟨_, rfl⟩
  · exact ⟨_, rfl⟩

theorem writeProblem_ok {num : Rat → List Char} {p : PProblem}
    (hl : p.names.length ≤ p.values.length) (ho : ∀ e ∈ p.elems, e.var < p.names.length)
    (hq : ∀ e ∈ p.qelems, e.a < p.names.length ∧ e.b < p.names.length)
    (hc : ∀ c ∈ p.eqs ++ p.ges ++ p.les, ∀ e ∈ c.elems, e.var < p.names.length) :
    ∃ t, writeProblem num p = .ok t := by
  unfold writeProblem
  split
  · exact ⟨_, rfl⟩
  obtain ⟨o, h1⟩ := writeObjective_ok (num := num) ho
  obtain ⟨q, h2⟩ : ∃ q, Parser.writeQuadratic num p p.qelems = .ok q := by
    unfold Parser.writeQuadratic
    split
    · exact ⟨_, rfl⟩
    · obtain ⟨t, ht⟩ := writeQuads_ok (num := num) hq
      rw [ht]; exact ⟨_, rfl⟩
  obtain ⟨c, h3⟩ : ∃ c, Parser.writeConstraints p = .ok c := by
    obtain ⟨a, ha⟩ := writeList_ok (p := p) (sep := " = ") (l := p.eqs) fun c h => hc c (by simp [h])
    obtain ⟨b, hb⟩ := writeList_ok (p := p) (sep := " >= ") (l := p.ges) fun c h => hc c (by simp [h])
    obtain ⟨d, hd⟩ := writeList_ok (p := p) (sep := " <= ") (l := p.les) fun c h => hc c (by simp [h])
    unfold Parser.writeConstraints
    rw [ha, hb, hd]; exact ⟨_, rfl⟩
  obtain ⟨b, h4⟩ := forVars_ok (f := Parser.writeBound) hl
  obtain ⟨x, h5⟩ := writeType_ok (have' := (Parser.haveTypes (p.values.take p.names.length) false false).1)
    (head := "binary") (t := .binary) hl
  obtain ⟨y, h6⟩ := writeType_ok (have' := (Parser.haveTypes (p.values.take p.names.length) false false).2)
    (head := "general") (t := .general) hl
  dsimp only
  rw [h1, h2, h3, h4, h5, h6]
  exact ⟨_, rfl⟩

/-- C123: writing the file never changes what `preprocess` gives, whether it succeeds or fails and
whether the file can be opened or not; a file that cannot be opened keeps what it held, without any
message. -/
theorem C123_writing_changes_nothing (num : Rat → List Char) (opens : Bool)
    (old : Option (List Char)) (pb : RawProblem) (wf : WellFormedRaw pb) :
    (preprocessAndWrite num opens old pb).map Prod.fst = preprocess pb ∧
    (opens = false → ∀ r, preprocessAndWrite num opens old pb = .ok r → r.2 = old) := by
  unfold preprocessAndWrite
  constructor
  · cases h : preprocess pb with
    | error e => rfl
    | ok red =>
      obtain ⟨-, -, -, c4, -, -, c7, c8, c9⟩ := C04_variables_partitioned pb wf red h
      have hln : (toWriter red).names.length = red.names.length := by simp [toWriter]
      obtain ⟨t, ht⟩ := writeProblem_ok (num := num) (p := toWriter red) (by rw [hln]; exact c4.le)
        (fun e he => by
          obtain ⟨e', he', rfl⟩ := List.mem_map.mp he
          rw [hln]; exact c8 e' he')
        (fun e he => by
          obtain ⟨e', he', rfl⟩ := List.mem_map.mp he
          rw [hln]; exact c9 e' he')
        (fun c hc => by rw [hln]; exact (c7 c hc).1)
      simp only [ok_bind, writeFile, ht]
      rfl
  · rintro rfl r h
    simp only [bind_eq_ok, writeFile] at h
    obtain ⟨a, -, b, ⟨t, -, hb⟩, h⟩ := h
    cases hb
    cases h
    rfl

/-! ## What the file holds -/

/-- `v` gives their values to the variables that the reduction has fixed. -/
def KeepsFixed (red : Problem) (v : String → Bool) : Prop :=
  ∀ p ∈ red.affected.names.zip red.affected.values, v p.1 = decide (p.2 ≠ 0)

theorem names_byName {pb : RawProblem} {red : Problem}
    (hp : (red.affected.names ++ red.names).Perm pb.names)
    (hl : red.affected.names.length = red.affected.values.length) {v : String → Bool}
    (hv : KeepsFixed red v) : Names pb.names (pairsOf red (byName v red.names)) (byName v pb.names) := by
  intro i n hi
  have hx : byName v pb.names i = v n := by unfold byName; rw [hi]; rfl
  rw [hx]
  unfold pairsOf
  have hm := hp.mem_iff.mpr (List.mem_of_getElem? hi)
  rcases List.mem_append.mp hm with h | h
  · obtain ⟨k, hk⟩ := List.getElem?_of_mem h
    have hk' := (List.getElem?_eq_some_iff.mp hk).1
    have hz : (n, red.affected.values[k]'(by omega)) ∈ red.affected.names.zip red.affected.values :=
      List.mem_of_getElem? (i := k) (by
        rw [List.getElem?_zip_eq_some]; exact ⟨hk, List.getElem?_eq_getElem _⟩)
    refine List.mem_append_right _ (List.mem_of_getElem? (i := k) ?_)
    rw [List.getElem?_zip_eq_some]
    refine ⟨hk, ?_⟩
    rw [List.getElem?_map, List.getElem?_eq_getElem (by omega : k < red.affected.values.length),
      Option.map_some, hv _ hz]
  · obtain ⟨k, hk⟩ := List.getElem?_of_mem h
    refine List.mem_append_left _ (List.mem_map.mpr ⟨(n, k), ?_, ?_⟩)
    · exact List.mk_mem_zipIdx_iff_getElem?.mpr hk
    · simp only [byName, hk, Option.map_some, Option.getD_some]

theorem restricts_byName (pb : RawProblem) (red : Problem) (v : String → Bool) :
    Restricts pb.names red.names (byName v pb.names) (byName v red.names) := by
  intro i j n hi hj
  unfold byName
  rw [hi, hj]

theorem lookup_zip : ∀ {ns : List String} {vs : List Int}, ns.Nodup → ∀ p ∈ ns.zip vs,
    (ns.zip vs).lookup p.1 = some p.2
  | [], _, _, p, hp => by simp at hp
  | _ :: _, [], _, p, hp => by simp at hp
  | n :: ns, v :: vs, h, p, hp => by
    rw [List.zip_cons_cons] at hp ⊢
    rcases List.mem_cons.mp hp with rfl | hp
    · simp
    · have hne : p.1 ≠ n := by
        intro he
        exact (List.nodup_cons.mp h).1 (he ▸ (List.of_mem_zip (a := p.1) (b := p.2) hp).1)
      rw [List.lookup_cons, beq_false_of_ne hne]
      exact lookup_zip (List.nodup_cons.mp h).2 p hp

/-- C123 (partial): after `preprocess` of a problem that can be written, the file `preprocessed.lp`
holds a text that is read, and what is read has the variables that are left.  With the values that the
reduction has found for the others, its solutions are those of the raw problem, with the same value, and
a best one is a best one.  The values `v` are by name.  Missing: what `Writable` excludes (C41), factors
that are 0, constraints that the reduction may take out of the range of `int`, a constant of the
objective that is printed with an exponent, and the problems of which no variable is left, whose file is
empty (`C123_nothing_left`). -/
theorem C123_file_is_the_reduced_problem_partial (scan : Token → Option D) (num : Rat → List Char)
    (hs : ∀ t, Reserved t → scan t = none) (hd : ReadsInts scan) (old : Option (List Char))
    (pb : RawProblem) (hw : Writable scan num (rawToWriter pb))
    (hf : ∀ c ∈ pb.eqs ++ pb.ges ++ pb.les, ∀ e ∈ c.elems, e.factor ≠ 0)
    (hb : ∀ c ∈ pb.eqs ++ pb.ges ++ pb.les, |c.value| + (c.elems.map fun e => |e.factor|).sum ≤ intMax)
    (red : Problem) (h : preprocess pb = .ok red) (hne : red.names ≠ [])
    (hv : red.objective.value ≠ 0 →
      NumText scan (num |red.objective.value|) |red.objective.value|) :
    ∃ text q qb, preprocessAndWrite num true old pb = .ok (red, some text) ∧
      (∀ fuel, (tokensOf text).length < fuel → Parser.makeProblem scan fuel text = .ok q) ∧
      q.toRaw = some qb ∧ qb.type = pb.type ∧ qb.names.Perm red.names ∧
      (∀ v, KeepsFixed red v →
        (IsSolution pb (byName v pb.names) → IsSolution qb (byName v qb.names)) ∧
        ((∃ x, IsSolution pb x) → IsSolution qb (byName v qb.names) →
          IsSolution pb (byName v pb.names)) ∧
        objective qb.objective (byName v qb.names) = objective pb.objective (byName v pb.names)) ∧
      (∀ v, KeepsFixed red v → (∃ x, IsSolution pb x) → IsSolution qb (byName v qb.names) →
        (∀ w, IsSolution qb (byName w qb.names) →
          AtLeastAsGood qb.type (objective qb.objective (byName v qb.names))
            (objective qb.objective (byName w qb.names))) →
        IsSolution pb (byName v pb.names) ∧ ∀ z, IsSolution pb z →
          AtLeastAsGood pb.type (objective pb.objective (byName v pb.names))
            (objective pb.objective z)) := by
  have wf := wf_of_writable hw
  have hq : pb.objective.qelems = [] := by
    have := hw.quad
    simpa [rawToWriter, toWriter, ProblemType.ofRaw] using this
  obtain ⟨c1, c2, c3, c4, c5, c6, c7, c8, c9⟩ := C04_variables_partitioned pb wf red h
  obtain ⟨text, q, qb, h1, h2, h3, h4, h5, h6⟩ := Parser.C41_same_solutions_partial scan num _ hs hd
    (writable_reduced hw hf hb h hne hv) _ (toWriter_toRaw red)
  have htype : qb.type = pb.type := by
    rw [h4]; exact (C07_objective_preserved_partial pb wf hq red h _ _
      (C05_completion_exists pb wf red h (fun _ => false)).choose_spec.1).1
  have key : ∀ v, KeepsFixed red v →
      (IsSolution pb (byName v pb.names) → IsSolution qb (byName v qb.names)) ∧
      ((∃ x, IsSolution pb x) → IsSolution qb (byName v qb.names) →
        IsSolution pb (byName v pb.names)) ∧
      objective qb.objective (byName v qb.names) = objective pb.objective (byName v pb.names) := by
    intro v hk
    have hn := names_byName c1 c3 hk
    refine ⟨fun hx => (h6 v).1.mpr ⟨C06_no_solution_lost pb wf red h _ _ hx (restricts_byName pb red v),
      ?_⟩, fun hF hx => C05_reduced_solution_valid pb wf red h hF _ _ ((h6 v).1.mp hx).1 hn, ?_⟩
    · intro j w hj hm
      have hj' : j < red.names.length := by
        rw [c4]; exact (List.getElem?_eq_some_iff.mp hj).1
      have hjn : red.names[j]? = some (red.names[j]'hj') := List.getElem?_eq_getElem hj'
      obtain ⟨i, hi⟩ := List.getElem?_of_mem (c2.subset (List.getElem_mem hj'))
      have hval := c5 i j _ hi hjn
      have hj0 : red.values[j]? = some w := hj
      rw [hj0] at hval
      have := hx.2 i w hval.symm hm
      show byName v red.names j = _
      rw [← this]
      unfold byName
      rw [hi, hjn]
    · rw [(h6 v).2]
      exact (C07_objective_preserved_partial pb wf hq red h _ _ hn).2
  refine ⟨text, q, qb, ?_, h2, h3, htype, h5, key, ?_⟩
  · unfold preprocessAndWrite writeFile
    rw [h]
    simp only [ok_bind, h1]
    rfl
  · intro v hk hF hx hopt
    obtain ⟨-, k2, k3⟩ := key v hk
    refine ⟨k2 hF hx, ?_⟩
    intro z hz
    let w : String → Bool := fun n =>
      match (red.affected.names.zip red.affected.values).lookup n with
      | some b => decide (b ≠ 0)
      | none => z (pb.names.idxOf n)
    have hand : red.affected.names.Nodup :=
      (List.nodup_append.mp (c1.nodup_iff.mpr wf.names_nodup)).1
    have hwk : KeepsFixed red w := by
      intro p hp
      show (match (red.affected.names.zip red.affected.values).lookup p.1 with
        | some b => decide (b ≠ 0) | none => z (pb.names.idxOf p.1)) = _
      rw [lookup_zip hand p hp]
    have hr : Restricts pb.names red.names z (byName w red.names) := by
      intro i j n hi hj
      have hnot : n ∉ red.affected.names := by
        intro hm
        have := (List.nodup_append.mp (c1.nodup_iff.mpr wf.names_nodup)).2.2 n hm n
          (List.mem_of_getElem? hj)
        exact this rfl
      have hl : (red.affected.names.zip red.affected.values).lookup n = none := by
        rw [List.lookup_eq_none_iff]
        intro p hp
        rw [bne_iff_ne]
        intro he
        exact hnot (he ▸ (List.of_mem_zip (a := p.1) (b := p.2) hp).1)
      have hidx : pb.names.idxOf n = i := by
        have hi' := (List.getElem?_eq_some_iff.mp hi)
        obtain ⟨hlt, rfl⟩ := hi'
        exact List.Nodup.idxOf_getElem wf.names_nodup i hlt
      unfold byName
      rw [hj]
      show (match (red.affected.names.zip red.affected.values).lookup n with
        | some b => decide (b ≠ 0) | none => z (pb.names.idxOf n)) = _
      rw [hl, hidx]
    obtain ⟨g1, g2⟩ := C06_completion_at_least_as_good pb wf hq red h z _ _ hz hr
      (names_byName c1 c3 hwk)
    obtain ⟨m1, -, m3⟩ := key w hwk
    have := hopt w (m1 g1)
    rw [k3, m3, htype] at this
    revert this g2
    unfold AtLeastAsGood
    cases pb.type
    · exact fun a b => le_trans a b
    · exact fun a b => le_trans b a

/-! ## Example -/

/-- max 3a + 2b - c + 4d + 7 with a + b + c = 1, d <= 0 and a + d + g <= 2. -/
def exFile : RawProblem where
  type := .maximize
  objective := { elems := [⟨3, 0⟩, ⟨2, 1⟩, ⟨-1, 2⟩, ⟨4, 3⟩], value := 7 }
  eqs := [{ label := "c1", elems := [⟨1, 0⟩, ⟨1, 1⟩, ⟨1, 2⟩], value := 1, id := 0 }]
  les := [{ label := "c3", elems := [⟨1, 3⟩], value := 0, id := 1 },
          { label := "c4", elems := [⟨1, 0⟩, ⟨1, 3⟩, ⟨1, 4⟩], value := 2, id := 2 }]
  names := ["a", "b", "c", "d", "g"]
  values := [⟨0, 1, .binary⟩, ⟨0, 1, .binary⟩, ⟨0, 1, .binary⟩, ⟨0, 1, .binary⟩, ⟨0, 1, .binary⟩]

/-- What the preprocessor returns for it: `d` is 0. -/
def exFileRed : Problem where
  type := .maximize
  objective := { elems := [⟨3, 0⟩, ⟨2, 1⟩, ⟨-1, 2⟩], value := 7 }
  eqs := [{ label := "c1", elems := [⟨1, 0⟩, ⟨1, 1⟩, ⟨1, 2⟩], value := 1, id := 0 }]
  les := [{ label := "c4", elems := [⟨1, 0⟩, ⟨1, 3⟩], value := 2, id := 2 }]
  names := ["a", "b", "c", "g"]
  values := [⟨0, 1, .binary⟩, ⟨0, 1, .binary⟩, ⟨0, 1, .binary⟩, ⟨0, 1, .binary⟩]
  affected := { names := ["d"], values := [0] }
  ptype := .inequalities01

theorem exFile_runs : preprocess exFile = .ok exFileRed := by decide +kernel

theorem exFile_writable : Writable Parser.scanf Parser.exNum (rawToWriter exFile) :=
  Parser.writable_of (by decide +kernel) (by decide +kernel)

/-- The value of `d` is in the file as nothing: with `d` at 0 the solutions are those of the raw
problem. -/
example : ∃ text q qb, preprocessAndWrite Parser.exNum true none exFile = .ok (exFileRed, some text) ∧
    (∀ fuel, (tokensOf text).length < fuel → Parser.makeProblem Parser.scanf fuel text = .ok q) ∧
    q.toRaw = some qb ∧ IsSolution qb (byName (fun n => n == "a") qb.names) := by
  obtain ⟨text, q, qb, h1, h2, h3, -, -, h4, -⟩ := C123_file_is_the_reduced_problem_partial Parser.scanf
    Parser.exNum Parser.scanf_reserved Parser.scanf_ints none exFile exFile_writable (by decide +kernel)
    (by decide +kernel) exFileRed exFile_runs (by decide +kernel) (by decide +kernel)
  refine ⟨text, q, qb, h1, h2, h3, (h4 _ (by unfold KeepsFixed; decide +kernel)).1 ⟨by decide +kernel, ?_⟩⟩
  intro i v hi hm
  rcases i with _ | _ | _ | _ | _ | i <;> simp [exFile] at hi <;> subst hi <;> simp at hm

/-! ## Where the file does not help -/

/-- A file that was in the directory under this name is lost: what it held has no effect. -/
theorem C123_overwrites (num : Rat → List Char) (old : Option (List Char)) (pb : RawProblem) :
    preprocessAndWrite num true old pb = preprocessAndWrite num true none pb := by
  unfold preprocessAndWrite writeFile
  rfl

/-- When every variable is given a value the file is empty, and an empty file is not read: the best
value, here 7 with `a` at 1, is in no file. -/
theorem C123_nothing_left :
    (preprocessAndWrite Parser.exNum true none
      { type := .maximize, objective := { elems := [⟨3, 0⟩], value := 4 },
        eqs := [{ label := "c1", elems := [⟨1, 0⟩], value := 1, id := 0 }],
        names := ["a"], values := [⟨0, 1, .binary⟩] }).map Prod.snd = .ok (some []) ∧
    ∀ fuel q, Parser.makeProblem Parser.scanf fuel [] ≠ .ok q := by
  refine ⟨by decide +kernel, ?_⟩
  intro fuel q h
  cases fuel <;> cases h

/-- After `split` the file holds one of the two problems only, the one that was made last; the other
is in no file. -/
theorem C123_split_keeps_the_last (num : Rat → List Char) (old : Option (List Char)) (pb : Problem)
    (v : Nat) (first : Bool) (r : (Problem × Problem) × Option (List Char))
    (h : splitAndWrite num true old pb v first = .ok r) :
    ∃ text, r.2 = some text ∧
      writeProblem num (toWriter (if first then r.1.2 else r.1.1)) = .ok text := by
  unfold splitAndWrite writeFile at h
  simp only [bind_eq_ok] at h
  obtain ⟨a, -, f, ⟨t, -, hf⟩, b, -, g, ⟨t', ht, hg⟩, hr⟩ := h
  cases hf
  cases hg
  cases hr
  cases first <;> exact ⟨t', rfl, ht⟩

example : (splitAndWrite Parser.exNum true none exFileRed 0 true).map (fun r => r.2.isSome) = .ok true := by
  decide +kernel

end Bx.Preprocess
