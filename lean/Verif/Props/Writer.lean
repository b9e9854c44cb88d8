import Verif.Proofs.Writer4

/-!
# C41: writing then reading a problem gives it back

`num` is the text that `fmt` gives for a positive `double` and `scan` the value that `sscanf`
gives to a text.  `Writable` (`Verif.Spec.Writer`) says which problems can be written and read,
`SameProblem` that two problems are the same up to the numbering.
-/

namespace Bx.Parser

open Params (D)

variable {scan : Token → Option D} {num : Rat → List Char}

theorem recased_refl (t : Token) (ts : List Token) : Recased (t :: ts) (t :: ts) :=
  .sections rfl (by induction ts with
    | nil => exact .nil
    | cons a l ih => exact .cons (.inl rfl) ih)

theorem written_read {p : PProblem} (hs : ∀ t, Reserved t → scan t = none) (hd : ReadsInts scan)
    (hw : Writable scan num p) : ∃ text, writeProblem num p = .ok text ∧
      ∀ fuel, (tokensOf text).length < fuel →
        makeProblem scan fuel text = .ok ((fileOf num p).problem (scanned scan) (scannedInt scan)) := by
  obtain ⟨t, ht, sp⟩ := writeProblem_spell hw
  refine ⟨t, ht, fun fuel hf => ?_⟩
  rw [sp.tokensOf] at hf
  refine C68_read_as_written_partial scan hs _ _ _ (file_ok hw hd) t ⟨sp.readable, ?_⟩ fuel hf
  rw [sp.tokensOf]
  exact ⟨recased_refl _ _, .inl (file_open (file_ok hw hd) rfl)⟩

/-- C41 (partial): a problem that can be written is written as a text that is read as the same
problem, up to the numbering of the variables and of the constraints.  `scan` must read the
integers and must not read a number in a section word.  Missing: what `Writable` excludes, for
which the claim is false: lower bounds (`C41_lower_bound`), variables that are not used
(`C41_unused`), quadratic terms (`C41_quadratic`), names that begin with `e` (`C41_name_with_e`),
numbers with an exponent (`C41_exponent`), constraints without terms (`C41_no_terms`). -/
theorem C41_round_trip_partial (scan : Token → Option D) (num : Rat → List Char) (p : PProblem)
    (hs : ∀ t, Reserved t → scan t = none) (hd : ReadsInts scan) (hw : Writable scan num p) :
    ∃ text q, writeProblem num p = .ok text ∧
      (∀ fuel, (tokensOf text).length < fuel → makeProblem scan fuel text = .ok q) ∧
      SameProblem p q := by
  obtain ⟨t, ht, h⟩ := written_read hs hd hw
  exact ⟨t, _, ht, h, same_problem hw hd⟩

/-! ## The same numbering -/

theorem firsts_map {f : Nat → Token} : ∀ {l : List Nat}, (∀ i ∈ l, ∀ j ∈ l, f i = f j → i = j) →
    firsts (l.map f) = (firsts l).map f := by
  intro l
  induction l using List.reverseRecOn with
  | nil => intro _; rfl
  | append_singleton l a ih =>
    intro h
    have ih := ih fun i hi j hj => h i (List.mem_append_left _ hi) j (List.mem_append_left _ hj)
    have e1 : ∀ {α : Type} [DecidableEq α] (l : List α) (a : α),
        firsts (l ++ [a]) = if a ∈ firsts l then firsts l else firsts l ++ [a] := by
      intro α _ l a
      unfold firsts
      rw [List.foldl_append]; rfl
    have hm : ∀ {l : List Nat} {x : Nat}, x ∈ firsts l → x ∈ l := by
      intro l
      induction l using List.reverseRecOn with
      | nil => intro x hx; simp [firsts] at hx
      | append_singleton l a ih =>
        intro x hx
        rw [e1] at hx
        split at hx
        · exact List.mem_append_left _ (ih hx)
        · rcases List.mem_append.mp hx with hx | hx
          · exact List.mem_append_left _ (ih hx)
          · exact List.mem_append_right _ hx
    rw [List.map_append, List.map_singleton, e1, e1, ih]
    have : f a ∈ (firsts l).map f ↔ a ∈ firsts l := by
      constructor
      · intro hx
        obtain ⟨b, hb, e⟩ := List.mem_map.mp hx
        rwa [← h b (List.mem_append_left _ (hm hb)) a (by simp) e]
      · exact fun hx => List.mem_map_of_mem hx
    by_cases ha : a ∈ firsts l
    · rw [if_pos ha, if_pos (this.mpr ha)]
    · rw [if_neg ha, if_neg (fun hc => ha (this.mp hc)), List.map_append, List.map_singleton]

/-- The variables and the constraints are numbered in the order of the text, and no term has a
factor 0. -/
structure InOrder (p : PProblem) : Prop where
  obj : ∀ e ∈ p.elems, e.factor ≠ .fin 0
  con : ∀ c ∈ p.constraints, ∀ e ∈ c.elems, e.factor ≠ 0
  vars : firsts (p.elems.map PElem.var ++
    p.constraints.flatMap fun c => c.elems.map FunElem.var) = List.range p.names.length
  ids : p.constraints.map Constr.id = (List.range p.constraints.length).map fun (i : Nat) => (i : Int)

theorem map_nm {p : PProblem} : (List.range p.names.length).map p.nm = p.names := by
  apply List.ext_getElem
  · simp
  · intro i h1 h2
    simp only [List.getElem_map, List.getElem_range]
    have := nm_eq h2
    rw [List.getElem?_eq_getElem h2] at this
    exact (Option.some.inj this).symm

theorem idxOf_nm {p : PProblem} (hn : p.names.Nodup) {i : Nat} (h : i < p.names.length) :
    p.names.idxOf (p.nm i) = i := by
  have := nm_eq h
  rw [List.getElem?_eq_some_iff] at this
  obtain ⟨_, e⟩ := this
  rw [← e]
  exact List.Nodup.idxOf_getElem hn i h

theorem inOrder_names {p : PProblem} (hw : Writable scan num p) (ho : InOrder p) :
    (fileOf num p).names = p.names := by
  have hobj : (p.elems.filter fun e => e.factor ≠ .fin 0) = p.elems :=
    List.filter_eq_self.mpr fun e he => by simpa using ho.obj e he
  have hcon : ∀ (op : OpWord) (l : List Constr), (∀ c ∈ l, c ∈ p.constraints) →
      (l.map (constrFile p op)).flatMap (fun c => c.terms.filterMap Term.name) =
        l.flatMap fun c => c.elems.map fun e => p.nm e.var := by
    intro op l hl
    rw [List.flatMap_map]
    apply List.flatMap_congr
    intro c hc
    rw [con_names hw (hl c hc), List.filter_eq_self.mpr fun e he => by
      simpa using ho.con c (hl c hc) e he]
  have hmem : ∀ c, (c ∈ p.eqs → c ∈ p.constraints) ∧ (c ∈ p.ges → c ∈ p.constraints) ∧
      (c ∈ p.les → c ∈ p.constraints) := by
    intro c
    unfold PProblem.constraints
    simp only [List.mem_append]
    tauto
  have h1 : (fileOf num p).names = firsts ((p.elems.map PElem.var ++
      p.constraints.flatMap fun c => c.elems.map FunElem.var).map p.nm) := by
    unfold File.names
    have hq : (fileOf num p).objNames = (fileOf num p).obj.filterMap Term.name :=
      List.append_nil _
    rw [hq, obj_names hw, hobj]
    have hc : (fileOf num p).cons.getD [] = p.eqs.map (constrFile p .eq) ++
      p.ges.map (constrFile p .ge) ++ p.les.map (constrFile p .le) := rfl
    rw [hc, List.flatMap_append, List.flatMap_append, hcon _ _ fun c => (hmem c).1,
      hcon _ _ fun c => (hmem c).2.1, hcon _ _ fun c => (hmem c).2.2]
    unfold PProblem.constraints
    simp only [List.map_append, List.map_map, List.flatMap_append, List.map_flatMap,
      Function.comp_def]
  have hlt : ∀ i ∈ p.elems.map PElem.var ++ p.constraints.flatMap (fun c => c.elems.map FunElem.var),
      i < p.names.length := by
    intro i hi
    rcases List.mem_append.mp hi with hi | hi
    · obtain ⟨e, he, rfl⟩ := List.mem_map.mp hi
      exact hw.obj_lt e he
    · obtain ⟨c, hc, hi⟩ := List.mem_flatMap.mp hi
      obtain ⟨e, he, rfl⟩ := List.mem_map.mp hi
      exact hw.con_lt c hc e he
  rw [h1, firsts_map fun i hi j hj h => nm_inj hw.names_nodup (hlt i hi) (hlt j hj) h, ho.vars,
    map_nm]

theorem map_zipIdx_self {l : List Constr} {k : Nat} {g : Constr × Nat → Constr}
    (h : ∀ c ∈ l, ∀ i : Nat, c.id = i → g (c, i) = c)
    (hid : l.map Constr.id = (List.range' k l.length).map fun (i : Nat) => (i : Int)) :
    (l.zipIdx k).map g = l := by
  induction l generalizing k with
  | nil => rfl
  | cons c l ih =>
    rw [List.length_cons, List.range'_succ, List.map_cons, List.map_cons, List.cons.injEq] at hid
    rw [List.zipIdx_cons, List.map_cons, h c List.mem_cons_self k hid.1,
      ih (fun d hd => h d (List.mem_cons_of_mem _ hd)) hid.2]

/-- C41 (partial): a problem that can be written and is numbered in the order of the text is
written as a text that is read as this very problem.  Missing: as in `C41_round_trip_partial`. -/
theorem C41_exact_partial (scan : Token → Option D) (num : Rat → List Char) (p : PProblem)
    (hs : ∀ t, Reserved t → scan t = none) (hd : ReadsInts scan) (hw : Writable scan num p)
    (ho : InOrder p) : ∃ text, writeProblem num p = .ok text ∧
      ∀ fuel, (tokensOf text).length < fuel → makeProblem scan fuel text = .ok p := by
  obtain ⟨t, ht, h⟩ := written_read hs hd hw
  refine ⟨t, ht, fun fuel hf => ?_⟩
  rw [h fuel hf]
  congr 1
  have hn := inOrder_names hw ho
  have hcs := constrs_eq (num := num) (p := p) (scannedInt scan)
  have hconstr : ∀ c ∈ p.constraints, ∀ (op : OpWord) (i : Nat), c.id = i →
      (constrFile p op c).constr (scannedInt scan) (fileOf num p).names i = c := by
    intro c hc op i hi
    have hsame := same_constr (q := (fileOf num p).problem (scanned scan) (scannedInt scan)) hw hd
      rfl hc op i
    have he : ((constrFile p op c).constr (scannedInt scan) (fileOf num p).names i).elems = c.elems := by
      unfold Con.constr
      dsimp only
      rw [con_collect hw hd hc, List.filter_eq_self.mpr fun e he => by
        simpa using ho.con c hc e he, List.map_map, hn]
      conv_rhs => rw [← List.map_id c.elems]
      apply List.map_congr_left
      intro e he
      show (⟨e.factor, p.names.idxOf (p.nm e.var)⟩ : FunElem) = e
      rw [idxOf_nm hw.names_nodup (hw.con_lt c hc e he)]
    have hl := hsame.label
    have hv := hsame.value
    have hid : ((constrFile p op c).constr (scannedInt scan) (fileOf num p).names i).id = c.id :=
      hi.symm
    generalize (constrFile p op c).constr (scannedInt scan) (fileOf num p).names i = d at *
    cases c; cases d
    simp_all
  have hmem : ∀ c, (c ∈ p.eqs → c ∈ p.constraints) ∧ (c ∈ p.ges → c ∈ p.constraints) ∧
      (c ∈ p.les → c ∈ p.constraints) := by
    intro c
    unfold PProblem.constraints
    simp only [List.mem_append]
    tauto
  have hids := ho.ids
  unfold PProblem.constraints at hids
  simp only [List.map_append, List.length_append, List.range_eq_range'] at hids
  rw [← List.range'_append_1, ← List.range'_append_1, List.map_append, List.map_append] at hids
  have hid1 := List.append_inj hids (by simp)
  have hid2 := List.append_inj hid1.1 (by simp)
  simp only [Nat.zero_add] at hid1 hid2
  have helems : ((collect (named (scanned scan) (fileOf num p).linear)).map fun x =>
      (⟨.fin x.2, (fileOf num p).names.idxOf x.1⟩ : PElem)) = p.elems := by
    rw [obj_collect hw, List.filter_eq_self.mpr fun e he => by simpa using ho.obj e he,
      List.map_map, hn]
    conv_rhs => rw [← List.map_id p.elems]
    apply List.map_congr_left
    intro e he
    obtain ⟨q, hq⟩ := obj_finite hw e he
    show (⟨.fin (ratOf e.factor), p.names.idxOf (p.nm e.var)⟩ : PElem) = e
    rw [idxOf_nm hw.names_nodup (hw.obj_lt e he), hq, ratOf_fin, ← hq]
  have hvalues : (fileOf num p).names.map ((fileOf num p).varValue (scannedInt scan)) = p.values := by
    rw [hn]
    have h1 : p.values = (p.names.zip p.values).map fun y =>
        (fileOf num p).varValue (scannedInt scan) y.1 := by
      have h2 := List.map_snd_zip hw.names_len.ge
      conv_lhs => rw [← h2]
      apply List.map_congr_left
      intro y hy
      exact (varValue_file hw hd (v := y.2) hy).symm
    have h3 := List.map_fst_zip hw.names_len.le
    conv_rhs => rw [h1]
    conv_lhs => rw [← h3]
    rw [List.map_map]; rfl
  unfold File.problem
  rw [helems, const_value hw, hcs.1, hcs.2.1, hcs.2.2, hvalues,
    map_zipIdx_self (fun c hc i hi => hconstr c ((hmem c).1 hc) _ i hi) hid2.1,
    map_zipIdx_self (fun c hc i hi => hconstr c ((hmem c).2.1 hc) _ i hi) hid2.2,
    map_zipIdx_self (fun c hc i hi => hconstr c ((hmem c).2.2 hc) _ i hi) hid1.2, hn]
  have hq := hw.quad
  have ht : (fileOf num p).type = p.type := rfl
  have hqf : (fileOf num p).quads = [] := rfl
  rw [ht, hqf]
  have hc0 : collectPairs (([] : List Quad).flatMap (Quad.products (scanned scan))) = [] :=
    rfl
  rw [hc0]
  cases p
  simp_all

/-! ## Examples -/

theorem natOf_append (l : Token) (c : Char) : natOf (l ++ [c]) = 10 * natOf l + digitVal c := by
  unfold natOf; rw [List.foldl_append]; rfl

theorem digitVal_digitChar : ∀ {d : Nat}, d < 10 → digitVal (digitChar d) = d := by decide

theorem natOf_decimal (n : Nat) : natOf (decimal n) = n := by
  induction n using Nat.strongRecOn with
  | ind n ih =>
    by_cases h : n < 10
    · rw [decimal_small h]
      show 10 * 0 + digitVal (digitChar n) = n
      rw [digitVal_digitChar h]; omega
    · rw [decimal_big h, natOf_append, ih _ (by omega), digitVal_digitChar (by omega)]
      omega

/-- `scanf` reads the integers. -/
theorem scanf_ints : ReadsInts scanf := by
  intro n _
  have hd : digitsOf (decimal n) = decimal n := by
    unfold digitsOf
    rw [List.takeWhile_eq_self_iff]
    intro c hc
    rw [← digit_eq]; exact decimal_digits n c hc
  have : scanDecimal (decimal n) = some (.fin n) := by
    unfold scanDecimal
    simp only [hd, List.drop_length]
    simp [decimal_ne n, natOf_decimal, exponentOf]
  unfold scanf
  rw [this]

instance (scan : Token → Option D) (w : Token) (q : Rat) : Decidable (NumText scan w q) :=
  decidable_of_iff ((w.head?.any fun c => digit c || c == '.') = true ∧
    (∀ c ∈ w, numChar c = true) ∧ scan w = some (.fin q) ∧ w.length < 320)
    ⟨fun ⟨a, b, c, d⟩ => ⟨by
        cases w with
        | nil => simp at a
        | cons x t => exact ⟨x, t, rfl, by simpa using a⟩, b, c, d⟩,
      fun ⟨⟨x, t, e, a⟩, b, c, d⟩ => ⟨by subst e; simpa using a, b, c, d⟩⟩

instance (n : Token) : Decidable (PlainFirst n) := by unfold PlainFirst; infer_instance

theorem writable_of {p : PProblem}
    (h : p.names.length = p.values.length ∧ p.names.Nodup ∧ p.names ≠ [] ∧
      (p.names.length : Int) ≤ intMax ∧ (∀ n ∈ p.names, NameOk scan n ∧ PlainFirst n) ∧
      (∀ e ∈ p.elems, e.var < p.names.length) ∧ (p.elems.map PElem.var).Nodup ∧
      (∀ e ∈ p.elems, e.factor = .fin (ratOf e.factor) ∧
        (ratOf e.factor ≠ 0 → NumText scan (num |ratOf e.factor|) |ratOf e.factor|)) ∧
      p.qelems = [] ∧
      (p.value = .fin (ratOf p.value) ∧
        (ratOf p.value ≠ 0 → NumText scan (num |ratOf p.value|) |ratOf p.value|)))
    (h' : (p.constraints.length : Int) ≤ intMax ∧
      (∀ c ∈ p.constraints, ∀ e ∈ c.elems, e.var < p.names.length) ∧
      (∀ c ∈ p.constraints, (c.elems.map FunElem.var).Nodup) ∧
      (∀ c ∈ p.constraints, ∃ e ∈ c.elems, e.factor ≠ 0) ∧
      (∀ c ∈ p.constraints, (c.elems.map fun e => |e.factor|).sum ≤ intMax) ∧
      (∀ c ∈ p.constraints, |c.value| ≤ intMax) ∧
      (∀ c ∈ p.constraints, c.label ≠ "" → NameOk scan c.label.toList ∧ PlainFirst c.label.toList) ∧
      (∀ i < p.names.length, (∃ e ∈ p.elems, e.var = i ∧ e.factor ≠ .fin 0) ∨
        ∃ c ∈ p.constraints, ∃ e ∈ c.elems, e.var = i ∧ e.factor ≠ 0) ∧
      (∀ x ∈ p.names.zip p.values, x.2.min = 0 ∧ |x.2.max| ≤ intMax ∧
        (x.2.max = intMax ∨ ¬ LikeNumber x.1) ∧ (x.2.type = .binary → x.2.max = 1))) :
    Writable scan num p := by
  obtain ⟨a, b, c, d, e, f, g, h, i, j⟩ := h
  obtain ⟨k, l, m, n, o, q, r, s, t⟩ := h'
  exact ⟨a, b, c, d, e, f, g, fun x hx => ⟨_, h x hx⟩, i, ⟨_, j⟩, k, l, m, n, o, q, r, s, t⟩

/-- The text of some numbers. -/
def exNum (q : Rat) : List Char :=
  if q = 1 / 2 then "0.5".toList
  else if q = 100000000000000000000 then "1e+20".toList else decimal q.num.natAbs

/-- The example of the reader can be written. -/
theorem exProblem_writable : Writable scanf exNum exProblem :=
  writable_of (by decide +kernel) (by decide +kernel)

example : ∃ text q, writeProblem exNum exProblem = .ok text ∧
    (∀ fuel, (tokensOf text).length < fuel → makeProblem scanf fuel text = .ok q) ∧
    SameProblem exProblem q :=
  C41_round_trip_partial scanf exNum exProblem scanf_reserved scanf_ints exProblem_writable

/-- A problem that is numbered in the order of the text. -/
def exOrder : PProblem :=
  { type := .minimize
    elems := [⟨.fin (-3), 0⟩, ⟨.fin (1 / 2), 1⟩]
    value := .fin (-10)
    eqs := [⟨"c1", [⟨1, 0⟩, ⟨-2, 2⟩], -1, 0⟩]
    les := [⟨"", [⟨1, 1⟩, ⟨1, 2⟩], 7, 1⟩]
    names := ["x".toList, "y".toList, "z".toList]
    values := [⟨0, 1, .binary⟩, ⟨0, 12, .general⟩, ⟨0, intMax, .real⟩] }

example : Writable scanf exNum exOrder := writable_of (by decide +kernel) (by decide +kernel)

example : InOrder exOrder := ⟨by decide +kernel, by decide +kernel, by decide +kernel, by decide +kernel⟩

/-! ## Where the claim is false -/

/-- Writes a problem and reads the text. -/
def again (p : PProblem) : PM PProblem :=
  match writeProblem exNum p with
  | .ok t => makeProblem scanf 100 t
  | .error f => .error (.fault f)

/-- The problem of the examples below. -/
def exTwo (values : List VarValue) : PProblem :=
  { elems := [⟨.fin 1, 0⟩, ⟨.fin 1, 1⟩], les := [⟨"", [⟨1, 0⟩, ⟨1, 1⟩], 1, 0⟩],
    names := ["x".toList, "y".toList], values := values }

example : again (exTwo [⟨0, 4, .general⟩, ⟨0, 1, .binary⟩]) =
    .ok (exTwo [⟨0, 4, .general⟩, ⟨0, 1, .binary⟩]) := by decide +kernel

/-- C41 is false of a lower bound: it is read as an upper bound, which the upper bound replaces. -/
theorem C41_lower_bound :
    again (exTwo [⟨2, 4, .general⟩, ⟨3, intMax, .general⟩]) =
      .ok (exTwo [⟨0, 4, .general⟩, ⟨0, 3, .general⟩]) := by decide +kernel

/-- C41 is false of a binary variable with one value. -/
theorem C41_fixed_binary :
    again (exTwo [⟨0, 0, .binary⟩, ⟨0, 1, .binary⟩]) =
      .ok (exTwo [⟨0, 1, .binary⟩, ⟨0, 1, .binary⟩]) := by decide +kernel

/-- C41 is false of a variable that is not used: it is lost, or its bound is refused. -/
theorem C41_unused :
    again { exTwo [⟨0, 1, .binary⟩, ⟨0, 1, .binary⟩, ⟨0, intMax, .real⟩] with
      names := ["x".toList, "y".toList, "z".toList] } =
      .ok (exTwo [⟨0, 1, .binary⟩, ⟨0, 1, .binary⟩]) ∧
    again { exTwo [⟨0, 1, .binary⟩, ⟨0, 1, .binary⟩, ⟨0, 1, .binary⟩] with
      names := ["x".toList, "y".toList, "z".toList] } = .error (.status .badBound) := by
  decide +kernel

/-- C41 is false of quadratic terms: the names of their variables are lost. -/
theorem C41_quadratic :
    (again { exTwo [⟨0, 1, .binary⟩, ⟨0, 1, .binary⟩] with
      qelems := [⟨.fin 1, 0, 0⟩, ⟨.fin 2, 0, 1⟩] }).map (fun p => (p.names, p.qelems)) =
      .ok (["x".toList, "y".toList, "+".toList], [⟨.fin 1, 2, 2⟩, ⟨.fin 2, 2, 1⟩]) := by decide +kernel

/-- C41 is false of a binary variable with a name that begins with `e`: its bound is refused. -/
theorem C41_name_with_e :
    again { exTwo [⟨0, 1, .binary⟩, ⟨0, 1, .binary⟩] with names := ["x".toList, "e1".toList] } =
      .error (.status .badBound) := by decide +kernel

/-- C41 is false of a factor with an exponent: `+ 1e+20 x` is read as the constant 1 and the term
`20 x`. -/
theorem C41_exponent :
    exNum (10 ^ 20) = "1e+20".toList ∧
    again { exTwo [⟨0, 1, .binary⟩, ⟨0, 1, .binary⟩] with
      elems := [⟨.fin (10 ^ 20), 0⟩, ⟨.fin 1, 1⟩] } =
      .ok { exTwo [⟨0, 1, .binary⟩, ⟨0, 1, .binary⟩] with
        elems := [⟨.fin 20, 0⟩, ⟨.fin 1, 1⟩], value := .fin 1 } := by decide +kernel

/-- C41 is false of a constraint without terms. -/
theorem C41_no_terms :
    again { exTwo [⟨0, 1, .binary⟩, ⟨0, 1, .binary⟩] with
      les := [⟨"", [⟨0, 0⟩], 1, 0⟩] } ≠
      .ok { exTwo [⟨0, 1, .binary⟩, ⟨0, 1, .binary⟩] with les := [⟨"", [⟨0, 0⟩], 1, 0⟩] } ∧
    again { exTwo [⟨0, 1, .binary⟩, ⟨0, 1, .binary⟩] with
      les := [⟨"", [⟨0, 0⟩], 1, 0⟩] } ≠
      .ok { exTwo [⟨0, 1, .binary⟩, ⟨0, 1, .binary⟩] with les := [⟨"", [], 1, 0⟩] } := by
  decide +kernel

/-- C41 is false of a problem without variables: nothing is written, and nothing is read. -/
theorem C41_no_variables : again {} ≠ .ok {} := by decide +kernel

end Bx.Parser
