import Verif.Proofs.Grammar
import Mathlib.Data.List.Induction

/-!
# Names and sums while a file is read
-/

namespace Bx.Parser

open Params (D)

/-! ## First occurrences -/

/-- A name after others. -/
def addName (N : List Token) (x : Token) : List Token := if x ∈ N then N else N ++ [x]

/-- Names after others. -/
def addNames (N l : List Token) : List Token := l.foldl addName N

theorem firsts_eq (l : List Token) : firsts l = addNames [] l := by
  unfold firsts addNames
  congr 1
  funext acc x
  unfold addName
  congr 1

theorem addNames_append (N l m : List Token) :
    addNames N (l ++ m) = addNames (addNames N l) m := by
  unfold addNames; rw [List.foldl_append]

theorem prefix_addName (N : List Token) (x : Token) : N <+: addName N x := by
  unfold addName
  split
  · exact List.prefix_refl _
  · exact List.prefix_append _ _

theorem prefix_addNames (N l : List Token) : N <+: addNames N l := by
  induction l generalizing N with
  | nil => exact List.prefix_refl _
  | cons x l ih => exact (prefix_addName N x).trans (ih _)

theorem mem_addName {N : List Token} {x y : Token} : y ∈ addName N x ↔ y ∈ N ∨ y = x := by
  unfold addName
  split
  · rename_i h
    constructor
    · exact .inl
    · rintro (h1 | rfl)
      · exact h1
      · exact h
  · simp

theorem mem_addNames {N l : List Token} {y : Token} : y ∈ addNames N l ↔ y ∈ N ∨ y ∈ l := by
  induction l generalizing N with
  | nil => simp [addNames]
  | cons x l ih =>
    show y ∈ addNames (addName N x) l ↔ _
    rw [ih, mem_addName, List.mem_cons]; tauto

theorem nodup_addName {N : List Token} (h : N.Nodup) (x : Token) : (addName N x).Nodup := by
  unfold addName
  split
  · exact h
  · rename_i hx
    refine List.nodup_append.mpr ⟨h, by simp, ?_⟩
    intro a ha b hb
    simp only [List.mem_singleton] at hb
    rintro rfl
    exact hx (hb ▸ ha)

theorem nodup_addNames {N l : List Token} (h : N.Nodup) : (addNames N l).Nodup := by
  induction l generalizing N with
  | nil => exact h
  | cons x l ih => exact ih (nodup_addName h x)

theorem idxOf_prefix {N M : List Token} (h : N <+: M) {x : Token} (hx : x ∈ N) :
    M.idxOf x = N.idxOf x := by
  obtain ⟨r, rfl⟩ := h
  exact List.idxOf_append_of_mem hx

/-! ## Sums -/

section

variable {R : Type} [AddMonoid R]

/-- A term after others. -/
def addPair : List (Token × R) → Token → R → List (Token × R)
  | [], n, f => [(n, f)]
  | (m, g) :: E, n, f => if m = n then (m, g + f) :: E else (m, g) :: addPair E n f

/-- Terms after others. -/
def addPairs (E l : List (Token × R)) : List (Token × R) :=
  l.foldl (fun E x => addPair E x.1 x.2) E

theorem addPair_map {L : List Token} (g : Token → R) (n : Token) (f : R) (h : L.Nodup) :
    addPair (L.map fun m => (m, g m)) n f =
      if n ∈ L then L.map fun m => (m, if m = n then g m + f else g m)
      else (L.map fun m => (m, g m)) ++ [(n, f)] := by
  induction L with
  | nil => simp [addPair]
  | cons a L ih =>
    rw [List.nodup_cons] at h
    simp only [List.map_cons, addPair, ih h.2]
    by_cases ha : a = n
    · subst ha
      simp only [List.mem_cons, true_or]
      rw [if_pos trivial]
      congr 1
      apply List.map_congr_left
      intro m hm
      rw [if_neg (by rintro rfl; exact h.1 hm)]
    · have : n ≠ a := fun hc => ha hc.symm
      simp only [if_neg ha, List.mem_cons, this, false_or]
      split <;> simp

theorem collect_snoc (l : List (Token × R)) (n : Token) (f : R) :
    collect (l ++ [(n, f)]) = addPair (collect l) n f := by
  unfold collect
  have hn : (firsts (l.map Prod.fst)).Nodup := by
    rw [firsts_eq]; exact nodup_addNames List.nodup_nil
  rw [addPair_map _ _ _ hn]
  have hf : firsts ((l ++ [(n, f)]).map Prod.fst) = addName (firsts (l.map Prod.fst)) n := by
    rw [List.map_append, firsts_eq, firsts_eq, addNames_append]; rfl
  rw [hf]
  have hs : ∀ m, (((l ++ [(n, f)]).filter fun x => x.1 = m).map Prod.snd).sum =
      if m = n then ((l.filter fun x => x.1 = m).map Prod.snd).sum + f
        else ((l.filter fun x => x.1 = m).map Prod.snd).sum := by
    intro m
    rw [List.filter_append, List.map_append, List.sum_append]
    by_cases hm : m = n
    · subst hm; simp
    · rw [if_neg hm]
      have : decide (n = m) = false := decide_eq_false fun h => hm h.symm
      simp [this]
  simp only [hs]
  unfold addName
  split
  · rfl
  · rename_i hmem
    rw [List.map_append]
    congr 1
    · apply List.map_congr_left
      intro m hm
      rw [if_neg (by rintro rfl; exact hmem hm)]
    · have : (l.filter fun x => decide (x.1 = n)) = [] := by
        rw [List.filter_eq_nil_iff]
        intro x hx
        simp only [decide_eq_true_eq]
        rintro rfl
        refine hmem ?_
        rw [firsts_eq, mem_addNames]
        exact .inr (List.mem_map_of_mem hx)
      simp [this]

theorem collect_eq (l : List (Token × R)) : collect l = addPairs [] l := by
  induction l using List.reverseRecOn with
  | nil => rfl
  | append_singleton l x ih =>
    obtain ⟨n, f⟩ := x
    rw [collect_snoc, ih]
    unfold addPairs
    rw [List.foldl_append]; rfl

theorem mem_addPair {E : List (Token × R)} {n : Token} {f : R} {x : Token × R}
    (h : x ∈ addPair E n f) : x.1 = n ∨ ∃ y ∈ E, y.1 = x.1 := by
  induction E with
  | nil => simp only [addPair, List.mem_singleton] at h; subst h; exact .inl rfl
  | cons e E ih =>
    obtain ⟨m, g⟩ := e
    unfold addPair at h
    split at h
    · rcases List.mem_cons.mp h with rfl | h
      · exact .inr ⟨(m, g), List.mem_cons_self, rfl⟩
      · exact .inr ⟨x, List.mem_cons_of_mem _ h, rfl⟩
    · rcases List.mem_cons.mp h with rfl | h
      · exact .inr ⟨(m, g), List.mem_cons_self, rfl⟩
      · rcases ih h with h | ⟨y, hy, h⟩
        · exact .inl h
        · exact .inr ⟨y, List.mem_cons_of_mem _ hy, h⟩

end

/-! ## Problems while a file is read -/

/-- The default values of variables. -/
def defaults (N : List Token) : List VarValue := N.map fun _ => ⟨0, intMax, .real⟩

/-- The problem after a part of a file: `M` are the names at the end, `N` those read, `E` the
terms of the objective, `v` its constant and `Q` its quadratic terms. -/
def partOf (M : List Token) (ty : ObjType) (N : List Token) (E : List (Token × Rat)) (v : Rat)
    (Q : List PQuad) (eqs ges les : List Constr) : PProblem :=
  { type := ty, elems := E.map fun x => ⟨.fin x.2, M.idxOf x.1⟩, qelems := Q, value := .fin v,
    eqs := eqs, ges := ges, les := les, names := N, values := defaults N }

theorem getVariable_eq (p : PProblem) (n : Token) :
    p.getVariable n = if n ∈ p.names then some (p.names.idxOf n) else none := by
  unfold PProblem.getVariable
  split
  · rename_i h
    rw [List.findIdx?_eq_some_iff_findIdx_eq]
    exact ⟨List.idxOf_lt_length_iff.mpr h, rfl⟩
  · rename_i h
    rw [List.findIdx?_eq_none_iff]
    intro x hx
    rw [beq_eq_false_iff_ne]
    rintro rfl
    exact h hx

theorem getOrAssign_eq {p : PProblem} {n : Token} {M : List Token}
    (hv : p.values = defaults p.names) (hM : addName p.names n <+: M)
    (hl : (M.length : Int) ≤ intMax) :
    p.getOrAssign n = some (M.idxOf n, { p with names := addName p.names n
                                                values := defaults (addName p.names n) }) := by
  unfold PProblem.getOrAssign
  rw [getVariable_eq]
  have hi : M.idxOf n = (addName p.names n).idxOf n :=
    idxOf_prefix hM (mem_addName.mpr (.inr rfl))
  by_cases h : n ∈ p.names
  · rw [if_pos h]
    have : addName p.names n = p.names := by unfold addName; rw [if_pos h]
    simp only [hi, this]
    rw [← hv]
  · rw [if_neg h]
    have e : addName p.names n = p.names ++ [n] := by unfold addName; rw [if_neg h]
    have hlen := hM.length_le
    rw [e, List.length_append, List.length_singleton] at hlen
    simp only
    rw [if_neg (by omega)]
    rw [hi, e, List.idxOf_append_of_notMem h]
    simp [defaults, hv]

theorem addObj_map {M : List Token} {E : List (Token × Rat)} {n : Token} (f : Rat) (hn : n ∈ M)
    (hE : ∀ x ∈ E, x.1 ∈ M) :
    addObj (.fin f) (M.idxOf n) (E.map fun x => ⟨.fin x.2, M.idxOf x.1⟩) =
      (addPair E n f).map fun x => ⟨.fin x.2, M.idxOf x.1⟩ := by
  induction E with
  | nil => rfl
  | cons e E ih =>
    obtain ⟨m, g⟩ := e
    have hm : m ∈ M := hE (m, g) List.mem_cons_self
    simp only [List.map_cons, addObj, addPair]
    by_cases h : m = n
    · subst h
      simp [add]
    · have : M.idxOf m ≠ M.idxOf n := fun hc => h ((List.idxOf_inj hm).mp hc)
      rw [if_neg this, if_neg h, List.map_cons]
      rw [ih fun x hx => hE x (List.mem_cons_of_mem _ hx)]

/-- The sum of the constants with a start. -/
theorem constant_cons (val : Token → Rat) (t : Term) (ts : List Term) :
    constant val (t :: ts) = (if t.name = none then t.factor val else 0) + constant val ts := by
  unfold constant
  by_cases h : t.name = none
  · simp [h]
  · simp [h]

theorem named_cons {R : Type} [One R] [Neg R] [Mul R] (val : Token → R) (t : Term)
    (ts : List Term) :
    named val (t :: ts) = (t.name.map fun n => (n, t.factor val)).toList ++ named val ts := by
  unfold named
  rw [List.filterMap_cons]
  cases t.name <;> rfl

variable {scan : Token → Option D} {val : Token → Rat} {ival : Token → Int}

theorem appendObjective_eq {M N : List Token} {ty : ObjType} {E : List (Token × Rat)} {v : Rat} {Q : List PQuad}
    {n : Token} (f : Rat) (hne : n ≠ []) (hM : addName N n <+: M)
    (hl : (M.length : Int) ≤ intMax) (hE : ∀ x ∈ E, x.1 ∈ M) :
    (partOf M ty N E v Q [] [] []).appendObjective (.fin f) n =
      some (partOf M ty (addName N n) (addPair E n f) v Q [] [] []) := by
  unfold PProblem.appendObjective
  rw [if_neg hne, getOrAssign_eq (M := M) rfl hM hl]
  simp only [partOf]
  rw [addObj_map f (hM.subset (mem_addName.mpr (.inr rfl))) hE]

theorem popFront_list (ts rest : List Token) (h : 1 ≤ ts.length) (h' : ts.length < 10) :
    popFront listSource (ts ++ rest) ts.length = .ok rest := by
  unfold popFront
  rw [if_pos ⟨h, h'⟩]
  show Except.ok ((ts ++ rest).drop ts.length) = _
  rw [List.drop_left]

theorem term_length {t : Term} (h : TermOk scan val t) :
    1 ≤ t.tokens.length ∧ t.tokens.length < 10 := by
  obtain ⟨sign, num, name⟩ := t
  have hs := h.some
  simp only at hs
  match sign, num, name with
  | none, none, none => rcases hs with h | h <;> exact absurd rfl h
  | none, some _, none | none, none, some _ | none, some _, some _
  | some false, none, none | some false, some _, none | some false, none, some _
  | some false, some _, some _ | some true, none, none | some true, some _, none
  | some true, none, some _ | some true, some _, some _ =>
    simp [Term.tokens, signTokens]

/-- The first tokens of a term. -/
theorem term_head {t : Term} (h : TermOk scan val t) (rest : List Token) :
    isKeyword ((t.tokens ++ rest).getD 0 []) = false ∧
      startsWithQuadratic ((t.tokens ++ rest).getD 0 []) ((t.tokens ++ rest).getD 1 []) = false ∧
      (t.tokens ++ rest).getD 0 [] ≠ [] ∧
      startsWithOperator ((t.tokens ++ rest).getD 0 []) = false ∧
      (t.sign ≠ none → startsWithName ((t.tokens ++ rest).getD 0 []) = false) ∧
      (t.tokens ++ rest).getD 0 [] ≠ [':'] := by
  obtain ⟨sign, num, name⟩ := t
  have hn : ∀ n ∈ num, NumOk scan val n := h.num
  have hx : ∀ n ∈ name, NameOk scan n := h.name
  have hs := h.some
  simp only at hs
  have key : ∀ a, (∃ n, num = some n ∧ a = n) ∨ (∃ n, num = none ∧ name = some n ∧ a = n) →
      isKeyword a = false ∧ a ≠ ['['] ∧ a ≠ [] ∧ startsWithOperator a = false ∧ a ≠ ['+'] ∧
        a ≠ ['-'] ∧ a ≠ [':'] := by
    rintro a (⟨n, rfl, rfl⟩ | ⟨n, -, rfl, rfl⟩)
    · have o := hn a rfl
      exact ⟨o.kw, o.ne (by decide), o.nonempty, o.op, o.ne (by decide), o.ne (by decide),
        o.ne (by decide)⟩
    · have o := hx a rfl
      exact ⟨o.kw, o.ne (by decide), o.nonempty, o.op, o.ne (by decide), o.ne (by decide),
        o.ne (by decide)⟩
  have hcase : ∃ a r, num.toList ++ name.toList = a :: r ∧
      ((∃ n, num = some n ∧ a = n) ∨ (∃ n, num = none ∧ name = some n ∧ a = n)) := by
    match num, name with
    | none, none => rcases hs with h | h <;> exact absurd rfl h
    | some n, x => exact ⟨n, x.toList, rfl, .inl ⟨n, rfl, rfl⟩⟩
    | none, some x => exact ⟨x, [], rfl, .inr ⟨x, rfl, rfl, rfl⟩⟩
  obtain ⟨a, r, e, ha⟩ := hcase
  have k := key a ha
  have et : (Term.tokens ⟨sign, num, name⟩) = signTokens sign ++ a :: r := by
    unfold Term.tokens
    rw [List.append_assoc, e]
  rw [et]
  match sign with
  | none =>
    refine ⟨k.1, ?_, k.2.2.1, k.2.2.2.1, fun hc => absurd rfl hc, k.2.2.2.2.2.2⟩
    simp [startsWithQuadratic, signTokens, k]
  | some false =>
    refine ⟨?_, ?_, ?_, ?_, fun _ => ?_, ?_⟩
    · exact (by decide : isKeyword ['+'] = false)
    · simp [startsWithQuadratic, signTokens, k]
    · simp [signTokens]
    · rfl
    · exact (by decide : startsWithName ['+'] = false)
    · simp [signTokens]
  | some true =>
    refine ⟨?_, ?_, ?_, ?_, fun _ => ?_, ?_⟩
    · exact (by decide : isKeyword ['-'] = false)
    · simp [startsWithQuadratic, signTokens, k]
    · simp [signTokens]
    · rfl
    · exact (by decide : startsWithName ['-'] = false)
    · simp [signTokens]

theorem objElem_eq {M N : List Token} {ty : ObjType} {E : List (Token × Rat)} {v : Rat} {Q : List PQuad}
    {t : Term} (ok : TermOk scan val t) {rest : List Token} (hr : t.name = none → Stops rest)
    (hM : addNames N t.name.toList <+: M) (hl : (M.length : Int) ≤ intMax)
    (hE : ∀ x ∈ E, x.1 ∈ M) :
    objElem listSource scan (t.tokens ++ rest) (partOf M ty N E v Q [] [] []) =
      .ok (rest, partOf M ty (addNames N t.name.toList)
        (addPairs E (t.name.map fun n => (n, t.factor val)).toList)
        (v + if t.name = none then t.factor val else 0) Q [] [] []) := by
  unfold objElem
  show (readElem scan ((t.tokens ++ rest).getD 0 []) ((t.tokens ++ rest).getD 1 [])
      ((t.tokens ++ rest).getD 2 []) >>= _) = _
  rw [readElem_term ok rest hr]
  simp only [pm_ok_bind, orStop]
  have hp := popFront_list t.tokens rest (term_length ok).1 (term_length ok).2
  cases hn : t.name with
  | none =>
    simp only [PProblem.appendObjective, Option.getD_none, ↓reduceIte, pm_ok_bind, hp]
    rfl
  | some n =>
    rw [hn] at hM
    have hne : n ≠ [] := (ok.name n (by rw [hn]; rfl)).nonempty
    simp only [Option.getD_some, appendObjective_eq (t.factor val) hne hM hl hE, pm_ok_bind, hp]
    simp [addNames, addPairs]

/-- The terms of an objective, then anything. -/
theorem objLoop_terms {M : List Token} {ty : ObjType} (hl : (M.length : Int) ≤ intMax)
    {rest : List Token} (hrest : Stops rest) : ∀ (ts : List Term)
    {k : Nat} {N : List Token} {E : List (Token × Rat)} {v : Rat} {Q : List PQuad},
    (∀ t ∈ ts, TermOk scan val t) → Signed ts →
    addNames N (ts.filterMap Term.name) <+: M → (∀ x ∈ E, x.1 ∈ M) →
    objLoop listSource scan (k + ts.length) (ts.flatMap Term.tokens ++ rest)
        (partOf M ty N E v Q [] [] []) =
      objLoop listSource scan k rest (partOf M ty (addNames N (ts.filterMap Term.name))
        (addPairs E (named val ts)) (v + constant val ts) Q [] [] []) := by
  intro ts
  induction ts with
  | nil =>
    intro k N E v Q _ _ _ _
    simp [addNames, addPairs, named, constant]
  | cons t ts ih =>
    intro k N E v Q hok hsig hM hE
    · rw [List.length_cons, ← Nat.add_assoc]
      have ok := hok t List.mem_cons_self
      have hh := term_head ok (ts.flatMap Term.tokens ++ rest)
      rw [List.flatMap_cons, List.append_assoc]
      rw [objLoop]
      rw [if_neg (by
        show ¬ isKeyword ((t.tokens ++ (ts.flatMap Term.tokens ++ rest)).getD 0 []) = true
        rw [hh.1]; simp)]
      rw [if_neg (by
        show ¬ startsWithQuadratic ((t.tokens ++ (ts.flatMap Term.tokens ++ rest)).getD 0 [])
          ((t.tokens ++ (ts.flatMap Term.tokens ++ rest)).getD 1 []) = true
        rw [hh.2.1]; simp)]
      have enames : (t :: ts).filterMap Term.name = t.name.toList ++ ts.filterMap Term.name := by
        rw [List.filterMap_cons]; cases t.name <;> rfl
      rw [enames, addNames_append] at hM
      have hM1 : addNames N t.name.toList <+: M := (prefix_addNames _ _).trans hM
      have hstop : t.name = none → Stops (ts.flatMap Term.tokens ++ rest) := by
        intro _
        cases ts with
        | nil => exact hrest
        | cons u us =>
          right
          rw [List.flatMap_cons, List.append_assoc]
          exact (term_head (hok u (by simp)) _).2.2.2.2.1 (hsig u (by simp))
      rw [objElem_eq ok hstop hM1 hl hE]
      simp only [pm_ok_bind]
      rw [ih (fun u hu => hok u (List.mem_cons_of_mem _ hu))
        (fun u hu => hsig u (by
          simp only [List.drop_one, List.tail_cons] at hu ⊢
          exact List.mem_of_mem_tail hu))
 hM ?_]
      · rw [enames, addNames_append, named_cons, constant_cons]
        simp only [addPairs, List.foldl_append, add_assoc]
      · intro x hx
        cases hn : t.name with
        | none => rw [hn] at hx; exact hE x hx
        | some n =>
          rw [hn] at hx hM1
          rcases mem_addPair (show x ∈ addPair E n (t.factor val) from hx) with h | ⟨y, hy, h⟩
          · rw [h]; exact hM1.subset (mem_addName.mpr (.inr rfl))
          · rw [← h]; exact hE y hy

theorem objLoop_keyword {rest : List Token} (hrest : isKeyword (rest.getD 0 []) = true) (k : Nat)
    (p : PProblem) : objLoop listSource scan (k + 1) rest p = .ok (rest, p) := by
  rw [objLoop, if_pos (show isKeyword (listSource.tok rest 0) = true from hrest)]

end Bx.Parser
