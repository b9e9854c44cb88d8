import Verif.Spec.RenameFile
import Mathlib.Data.List.Basic

/-! # Lemmas for C137: the problem of a file with other names -/

namespace Bx.Parser

variable {φ ψ : Token → Token}

theorem firsts_rename {α β : Type} [DecidableEq α] [DecidableEq β] {φ : α → β} (hφ : φ.Injective) (l : List α) :
    firsts (l.map φ) = (firsts l).map φ := by
  unfold firsts
  have h : ∀ (l acc : List α), (l.map φ).foldl (fun acc x => if x ∈ acc then acc else acc ++ [x]) (acc.map φ) =
      (l.foldl (fun acc x => if x ∈ acc then acc else acc ++ [x]) acc).map φ := by
    intro l
    induction l with
    | nil => intro _; rfl
    | cons x l ih =>
      intro acc
      simp only [List.map_cons, List.foldl_cons, List.mem_map_of_injective hφ]
      by_cases hx : x ∈ acc
      · rw [if_pos hx, if_pos hx]; exact ih acc
      · rw [if_neg hx, if_neg hx, ← ih (acc ++ [x]), List.map_append]; rfl
  exact h l []

theorem filter_rename {α β γ : Type} [DecidableEq α] [DecidableEq β] {φ : α → β} (hφ : φ.Injective)
    (l : List (α × γ)) (n : α) :
    ((l.map (Prod.map φ id)).filter fun x => x.1 = φ n).map Prod.snd =
      (l.filter fun x => x.1 = n).map Prod.snd := by
  induction l with
  | nil => rfl
  | cons x l ih =>
    simp only [List.map_cons, List.filter_cons, Prod.map, hφ.eq_iff]
    split
    · simp only [List.map_cons]; rw [ih]; rfl
    · exact ih

theorem collect_rename {R : Type} [Add R] [Zero R] (hφ : φ.Injective) (l : List (Token × R)) :
    collect (l.map (Prod.map φ id)) = (collect l).map (Prod.map φ id) := by
  unfold collect
  rw [List.map_map, show (Prod.fst ∘ Prod.map φ (id : R → R)) = φ ∘ Prod.fst from rfl, ← List.map_map, firsts_rename hφ,
    List.map_map, List.map_map]
  refine List.map_congr_left fun n _ => ?_
  simp only [Function.comp, filter_rename hφ]
  rfl

theorem samePair_rename (hφ : φ.Injective) (x y : Token × Token) :
    samePair (Prod.map φ φ x) (Prod.map φ φ y) = samePair x y := by
  obtain ⟨a, b⟩ := x
  obtain ⟨c, d⟩ := y
  simp only [samePair, Prod.map, Prod.mk.injEq, hφ.eq_iff]

theorem firstPairs_rename (hφ : φ.Injective) (l : List (Token × Token)) :
    firstPairs (l.map (Prod.map φ φ)) = (firstPairs l).map (Prod.map φ φ) := by
  unfold firstPairs
  have h : ∀ (l acc : List (Token × Token)),
      (l.map (Prod.map φ φ)).foldl (fun acc x => if acc.any (samePair x) then acc else acc ++ [x])
        (acc.map (Prod.map φ φ)) =
      (l.foldl (fun acc x => if acc.any (samePair x) then acc else acc ++ [x]) acc).map (Prod.map φ φ) := by
    intro l
    induction l with
    | nil => intro _; rfl
    | cons x l ih =>
      intro acc
      have ha : (acc.map (Prod.map φ φ)).any (samePair (Prod.map φ φ x)) = acc.any (samePair x) := by
        rw [List.any_map]
        congr 1
        funext y
        exact samePair_rename hφ x y
      simp only [List.map_cons, List.foldl_cons, ha]
      by_cases hx : acc.any (samePair x) = true
      · rw [if_pos hx, if_pos hx]; exact ih acc
      · rw [if_neg hx, if_neg hx, ← ih (acc ++ [x]), List.map_append]; rfl
  exact h l []

theorem filterPair_rename (hφ : φ.Injective) (l : List ((Token × Token) × Rat)) (n : Token × Token) :
    ((l.map (Prod.map (Prod.map φ φ) id)).filter fun x => samePair x.1 (Prod.map φ φ n)).map Prod.snd =
      (l.filter fun x => samePair x.1 n).map Prod.snd := by
  induction l with
  | nil => rfl
  | cons x l ih =>
    have h : samePair (Prod.map (Prod.map φ φ) id x).1 (Prod.map φ φ n) = samePair x.1 n := samePair_rename hφ x.1 n
    simp only [List.map_cons, List.filter_cons, h]
    split
    · simp only [List.map_cons]; rw [ih]; rfl
    · exact ih

theorem collectPairs_rename (hφ : φ.Injective) (l : List ((Token × Token) × Rat)) :
    collectPairs (l.map (Prod.map (Prod.map φ φ) id)) = (collectPairs l).map (Prod.map (Prod.map φ φ) id) := by
  unfold collectPairs
  rw [List.map_map, show (Prod.fst ∘ Prod.map (Prod.map φ φ) (id : Rat → Rat)) = Prod.map φ φ ∘ Prod.fst from rfl,
    ← List.map_map, firstPairs_rename hφ, List.map_map, List.map_map]
  refine List.map_congr_left fun n _ => ?_
  simp only [Function.comp, filterPair_rename hφ]
  rfl

theorem idxOf_rename (hφ : φ.Injective) (n : Token) : ∀ l : List Token, (l.map φ).idxOf (φ n) = l.idxOf n
  | [] => rfl
  | x :: l => by
    have h : (φ x == φ n) = (x == n) := by
      rw [Bool.eq_iff_iff, beq_iff_eq, beq_iff_eq]
      exact hφ.eq_iff
    rw [List.map_cons, List.idxOf_cons, List.idxOf_cons, idxOf_rename hφ n l, h]

theorem factor_rename {R : Type} [One R] [Neg R] [Mul R] (val : Token → R) (t : Term) :
    (t.rename φ).factor val = t.factor val := rfl

theorem named_rename {R : Type} [One R] [Neg R] [Mul R] (val : Token → R) (ts : List Term) :
    named val (ts.map (Term.rename φ)) = (named val ts).map (Prod.map φ id) := by
  unfold named
  rw [List.filterMap_map, List.map_filterMap]
  refine List.filterMap_congr fun t _ => ?_
  show (t.name.map φ).map _ = (t.name.map _).map _
  rw [Option.map_map, Option.map_map]
  rfl

theorem constant_rename (val : Token → Rat) (ts : List Term) :
    constant val (ts.map (Term.rename φ)) = constant val ts := by
  unfold constant
  rw [List.filter_map, List.map_map]
  have h : ((fun t : Term => decide (t.name = none)) ∘ Term.rename φ) = fun t : Term => decide (t.name = none) := by
    funext t
    simp [Term.rename]
  rw [h]
  rfl

theorem pair_rename (t : QTerm) : (t.rename φ).pair = Prod.map φ φ t.pair := by
  unfold QTerm.pair QTerm.rename
  cases t.second <;> rfl

theorem products_rename (val : Token → Rat) (q : Quad) :
    (q.rename φ).products val = (q.products val).map (Prod.map (Prod.map φ φ) id) := by
  unfold Quad.products Quad.rename
  rw [List.map_map, List.map_map]
  refine List.map_congr_left fun t _ => ?_
  simp only [Function.comp, pair_rename]
  rfl

theorem quadNames_rename (q : Quad) : (q.rename φ).names = q.names.map φ := by
  unfold Quad.names Quad.rename
  rw [List.flatMap_map, List.map_flatMap]
  refine List.flatMap_congr fun t _ => ?_
  rw [pair_rename]
  rfl

theorem termNames_rename (ts : List Term) :
    (ts.map (Term.rename φ)).filterMap Term.name = (ts.filterMap Term.name).map φ := by
  rw [List.filterMap_map, List.map_filterMap]
  rfl

theorem groupNames_rename (g : Group) : (g.rename φ).names = g.names.map φ := by
  unfold Group.names
  rw [List.map_append, ← quadNames_rename, ← termNames_rename]
  rfl

variable (φ ψ) in
theorem linear_rename (f : File) : (f.rename φ ψ).linear = f.linear.map (Term.rename φ) := by
  unfold File.linear File.rename
  rw [List.map_append, List.map_flatMap, List.flatMap_map]
  rfl

theorem cons_rename (f : File) : (f.rename φ ψ).cons.getD [] = (f.cons.getD []).map (Con.rename φ ψ) := by
  show (f.cons.map _).getD [] = _
  cases f.cons <;> rfl

theorem names_rename (hφ : φ.Injective) (f : File) : (f.rename φ ψ).names = f.names.map φ := by
  have ho : (f.rename φ ψ).objNames = f.objNames.map φ := by
    unfold File.objNames
    rw [List.map_append, ← termNames_rename, List.map_flatMap]
    show _ ++ (f.more.map (Group.rename φ)).flatMap Group.names = _
    rw [List.flatMap_map]
    simp only [groupNames_rename]
    rfl
  unfold File.names
  rw [← firsts_rename hφ, ho, cons_rename, List.map_append, List.flatMap_map, List.map_flatMap]
  simp only [← termNames_rename]
  rfl

theorem quads_rename (val : Token → Rat) (f : File) : (f.rename φ ψ).quads.flatMap (Quad.products val) =
    (f.quads.flatMap (Quad.products val)).map (Prod.map (Prod.map φ φ) id) := by
  unfold File.quads
  show ((f.more.map (Group.rename φ)).map Group.quad).flatMap _ = _
  rw [List.map_map, List.flatMap_map, List.flatMap_map, List.map_flatMap]
  refine List.flatMap_congr fun g _ => ?_
  exact products_rename val g.quad

theorem bounds_rename (f : File) : (f.rename φ ψ).bounds.getD [] = (f.bounds.getD []).map (BoundLine.rename φ) := by
  show (f.bounds.map _).getD [] = _
  cases f.bounds <;> rfl

theorem tokens_rename (l : Option (List Token)) : (l.map (List.map φ)).getD [] = (l.getD []).map φ := by
  cases l <;> rfl

theorem apply_rename (hφ : φ.Injective) (ival : Token → Int) (n : Token) (b : BoundLine) (v : VarValue) :
    (b.rename φ).apply ival (φ n) v = b.apply ival n v := by
  cases b <;> simp only [BoundLine.rename, BoundLine.apply, hφ.eq_iff]

theorem varValue_rename (hφ : φ.Injective) (ival : Token → Int) (f : File) (n : Token) :
    (f.rename φ ψ).varValue ival (φ n) = f.varValue ival n := by
  unfold File.varValue
  have hb : (f.rename φ ψ).binary.getD [] = (f.binary.getD []).map φ := tokens_rename f.binary
  have hg : (f.rename φ ψ).general.getD [] = (f.general.getD []).map φ := tokens_rename f.general
  rw [bounds_rename, hb, hg, List.foldl_map]
  simp only [apply_rename hφ, List.mem_map_of_injective hφ]

/-- The labels. -/
def relabel (ψ : Token → Token) (c : Constr) : Constr :=
  { c with label := if c.label = "" then "" else String.ofList (ψ c.label.toList) }

theorem constr_rename (hφ : φ.Injective) (ival : Token → Int) (names : List Token) (c : Con)
    (hl : ∀ l ∈ c.label, l ≠ []) (i : Nat) :
    (c.rename φ ψ).constr ival (names.map φ) i = relabel ψ (c.constr ival names i) := by
  unfold Con.constr relabel
  have hel : (collect (named ival (c.rename φ ψ).terms)).map (fun x => (⟨x.2, (names.map φ).idxOf x.1⟩ : FunElem)) =
      (collect (named ival c.terms)).map fun x => ⟨x.2, names.idxOf x.1⟩ := by
    show (collect (named ival (c.terms.map (Term.rename φ)))).map _ = _
    rw [named_rename, collect_rename hφ, List.map_map]
    refine List.map_congr_left fun x _ => ?_
    simp only [Function.comp, Prod.map, idxOf_rename hφ]
    rfl
  rw [hel]
  have hlab : String.ofList ((c.rename φ ψ).label.getD []) =
      if String.ofList (c.label.getD []) = "" then "" else
        String.ofList (ψ (String.ofList (c.label.getD [])).toList) := by
    show String.ofList ((c.label.map ψ).getD []) = _
    cases hc : c.label with
    | none => rfl
    | some l =>
      have hne : l ≠ [] := hl l (by rw [hc]; rfl)
      have : String.ofList l ≠ "" := by
        intro h
        apply hne
        have := congrArg String.toList h
        simpa using this
      simp only [Option.map_some, Option.getD_some, if_neg this, String.toList_ofList]
  rw [hlab]
  rfl

theorem constrs_rename (hφ : φ.Injective) (ival : Token → Int) (f : File)
    (hl : ∀ c ∈ f.cons.getD [], ∀ l ∈ c.label, l ≠ []) (op : Op) :
    (f.rename φ ψ).constrs ival op = (f.constrs ival op).map (relabel ψ) := by
  unfold File.constrs
  rw [cons_rename, names_rename hφ, List.zipIdx_map, List.filter_map, List.map_map, List.map_map]
  have hf : ((fun x : Con × Nat => decide (x.1.op.op = op)) ∘ Prod.map (Con.rename φ ψ) id) =
      fun x : Con × Nat => decide (x.1.op.op = op) := rfl
  rw [hf]
  refine List.map_congr_left fun x hx => ?_
  have hm : x.1 ∈ f.cons.getD [] := by
    have := (List.mem_filter.mp hx).1
    exact (List.mem_zipIdx' this).2 ▸ List.getElem_mem _
  exact constr_rename hφ ival f.names x.1 (hl x.1 hm) x.2

theorem problem_rename (hφ : φ.Injective) (val : Token → Rat) (ival : Token → Int) (f : File)
    (hl : ∀ c ∈ f.cons.getD [], ∀ l ∈ c.label, l ≠ []) :
    (f.rename φ ψ).problem val ival = renameRead φ ψ (f.problem val ival) := by
  unfold File.problem renameRead
  have h1 : (collect (named val (f.rename φ ψ).linear)).map
      (fun x => (⟨.fin x.2, (f.rename φ ψ).names.idxOf x.1⟩ : PElem)) =
      (collect (named val f.linear)).map fun x => ⟨.fin x.2, f.names.idxOf x.1⟩ := by
    rw [linear_rename, named_rename, collect_rename hφ, List.map_map, names_rename hφ]
    refine List.map_congr_left fun x _ => ?_
    simp only [Function.comp, Prod.map, idxOf_rename hφ]
    rfl
  have h2 : (collectPairs ((f.rename φ ψ).quads.flatMap (Quad.products val))).map
      (fun x => (⟨.fin x.2, (f.rename φ ψ).names.idxOf x.1.1, (f.rename φ ψ).names.idxOf x.1.2⟩ : PQuad)) =
      (collectPairs (f.quads.flatMap (Quad.products val))).map fun x =>
        ⟨.fin x.2, f.names.idxOf x.1.1, f.names.idxOf x.1.2⟩ := by
    rw [quads_rename, collectPairs_rename hφ, List.map_map, names_rename hφ]
    refine List.map_congr_left fun x _ => ?_
    simp only [Function.comp, Prod.map, idxOf_rename hφ]
    rfl
  have h3 : constant val (f.rename φ ψ).linear = constant val f.linear := by
    rw [linear_rename, constant_rename]
  have h4 : (f.rename φ ψ).names.map ((f.rename φ ψ).varValue ival) = f.names.map (f.varValue ival) := by
    rw [names_rename hφ, List.map_map]
    exact List.map_congr_left fun n _ => varValue_rename hφ ival f n
  rw [h1, h2, h3, h4, constrs_rename hφ ival f hl, constrs_rename hφ ival f hl, constrs_rename hφ ival f hl,
    names_rename hφ]
  rfl

end Bx.Parser
