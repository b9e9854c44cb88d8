import Verif.Props.Grammar

/-!
# C96: the objective of a file, quadratic terms included, is read as it is written
-/

namespace Bx.Parser

open Params (D)

/-! ## Sums of products -/

/-- The sum of products for an assignment. -/
def quadSum (x : Token → Rat) (l : List ((Token × Token) × Rat)) : Rat :=
  (l.map fun e => e.2 * x e.1.1 * x e.1.2).sum

theorem quadSum_cons (x : Token → Rat) (e : (Token × Token) × Rat)
    (l : List ((Token × Token) × Rat)) :
    quadSum x (e :: l) = e.2 * x e.1.1 * x e.1.2 + quadSum x l := by simp [quadSum]

theorem samePair_mul {p q : Token × Token} (h : samePair p q = true) (x : Token → Rat) :
    x p.1 * x p.2 = x q.1 * x q.2 := by
  rcases samePair_iff.mp h with rfl | rfl
  · rfl
  · exact mul_comm _ _

theorem quadSum_addProd (x : Token → Rat) (G : List ((Token × Token) × Rat)) (p : Token × Token)
    (f : Rat) : quadSum x (addProd G p f) = quadSum x G + f * x p.1 * x p.2 := by
  induction G with
  | nil => simp [addProd, quadSum]
  | cons e G ih =>
    obtain ⟨q, g⟩ := e
    unfold addProd
    split
    · rename_i h
      have := samePair_mul h x
      rw [quadSum_cons, quadSum_cons]
      simp only [mul_assoc, this]
      ring
    · rw [quadSum_cons, quadSum_cons, ih]; ring

theorem quadSum_collect (x : Token → Rat) (l : List ((Token × Token) × Rat)) :
    quadSum x (collectPairs l) = quadSum x l := by
  rw [collectPairs_eq]
  have key : ∀ (l G : List ((Token × Token) × Rat)),
      quadSum x (addProds G l) = quadSum x G + quadSum x l := by
    intro l
    induction l with
    | nil => intro G; simp [addProds, quadSum]
    | cons e l ih =>
      intro G
      show quadSum x (addProds (addProd G e.1 e.2) l) = _
      rw [ih, quadSum_addProd, quadSum_cons]; ring
  rw [key]
  simp [quadSum]

/-- The sum of terms for an assignment. -/
def linSum (x : Token → Rat) (l : List (Token × Rat)) : Rat := (l.map fun e => e.2 * x e.1).sum

theorem linSum_addPair (x : Token → Rat) (G : List (Token × Rat)) (p : Token)
    (f : Rat) : linSum x (addPair G p f) = linSum x G + f * x p := by
  induction G with
  | nil => simp [addPair, linSum]
  | cons e G ih =>
    obtain ⟨q, g⟩ := e
    unfold linSum at ih
    unfold addPair
    split
    · rename_i h
      subst h
      simp only [linSum, List.map_cons, List.sum_cons]
      ring
    · simp only [linSum, List.map_cons, List.sum_cons, ih]; ring

theorem linSum_collect (x : Token → Rat) (l : List (Token × Rat)) :
    linSum x (collect l) = linSum x l := by
  rw [collect_eq]
  have key : ∀ (l G : List (Token × Rat)), linSum x (addPairs G l) = linSum x G + linSum x l := by
    intro l
    induction l with
    | nil => intro G; simp [addPairs, linSum]
    | cons e l ih =>
      intro G
      show linSum x (addPairs (addPair G e.1 e.2) l) = _
      rw [ih, linSum_addPair]
      simp only [linSum, List.map_cons, List.sum_cons]; ring
  rw [key]
  simp [linSum]

theorem linSum_named (val : Token → Rat) (x : Token → Rat) (ts : List Term) :
    linSum x (named val ts) + constant val ts = (ts.map (Term.worth val x)).sum := by
  induction ts with
  | nil => simp [named, linSum, constant]
  | cons t ts ih =>
    rw [named_cons, constant_cons, List.map_cons, List.sum_cons, ← ih]
    unfold linSum
    rw [List.map_append, List.sum_append]
    unfold Term.worth
    cases t.name with
    | none => simp; ring
    | some n => simp; ring

theorem quadSum_products (val : Token → Rat) (x : Token → Rat) (qs : List Quad) :
    quadSum x (qs.flatMap (Quad.products val)) = (qs.map (Quad.worth val x)).sum := by
  induction qs with
  | nil => rfl
  | cons q qs ih =>
    have hs : ∀ l m, quadSum x (l ++ m) = quadSum x l + quadSum x m := by
      intro l m
      unfold quadSum
      rw [List.map_append, List.sum_append]
    rw [List.flatMap_cons, hs, ih, List.map_cons, List.sum_cons]
    congr 1
    unfold Quad.products quadSum Quad.worth
    rw [List.map_map]
    generalize (signOf q.sign : Rat) = s
    induction q.terms with
    | nil => simp
    | cons t ts ih =>
      rw [List.map_cons, List.sum_cons, ih, List.map_cons, List.sum_cons]
      simp only [Function.comp_apply]
      ring

/-! ## C96 -/

theorem getD_idxOf {l : List Token} {x : Token} (h : x ∈ l) : l.getD (l.idxOf x) [] = x := by
  rw [List.getD_eq_getElem?_getD, List.getElem?_eq_getElem (List.idxOf_lt_length_iff.mpr h)]
  simp

theorem mem_names_quad {f : File} {q : Quad} (hq : q ∈ f.quads) {t : QTerm} (ht : t ∈ q.terms) :
    t.pair.1 ∈ f.names ∧ t.pair.2 ∈ f.names := by
  have key : ∀ y ∈ [t.pair.1, t.pair.2], y ∈ f.names := by
    intro y hy
    obtain ⟨g, hg, rfl⟩ := List.mem_map.mp hq
    exact mem_firsts.mpr (List.mem_append_left _ (List.mem_append_right _ (List.mem_flatMap.mpr
      ⟨g, hg, List.mem_append_left _ (List.mem_flatMap.mpr ⟨t, ht, hy⟩)⟩)))
  exact ⟨key _ (by simp), key _ (by simp)⟩

theorem mem_firstPairs {l : List (Token × Token)} {p : Token × Token} (h : p ∈ firstPairs l) :
    p ∈ l := by
  induction l using List.reverseRecOn with
  | nil => cases h
  | append_singleton l x ih =>
    rw [firstPairs_snoc] at h
    split at h
    · exact List.mem_append_left _ (ih h)
    · rcases List.mem_append.mp h with h | h
      · exact List.mem_append_left _ (ih h)
      · exact List.mem_append_right _ h

theorem mem_products {val : Token → Rat} {f : File} {p : Token × Token}
    (h : p ∈ (f.quads.flatMap (Quad.products val)).map Prod.fst) :
    p.1 ∈ f.names ∧ p.2 ∈ f.names := by
  obtain ⟨e, he, rfl⟩ := List.mem_map.mp h
  obtain ⟨q, hq, he⟩ := List.mem_flatMap.mp he
  obtain ⟨t, ht, rfl⟩ := List.mem_map.mp he
  exact mem_names_quad hq ht

/-- C96 (partial): the objective that is read is worth, for all values `x` of the variables, what
the objective of the text is worth: the sum of its terms, and of the products and of the squares
between brackets, halved.  Missing: quadratic terms that are written with too many blanks, for
which the claim is false (`C38_quadratic_layout`). -/
theorem C96_objective_value_partial (scan : Token → Option D)
    (hs : ∀ t, Reserved t → scan t = none) (val : Token → Rat) (ival : Token → Int) (f : File)
    (ok : FileOk scan val ival f) (text : List Char) (h : Denotes text f.tokens) (fuel : Nat)
    (hf : f.tokens.length < fuel) :
    ∃ (p : PProblem) (lin : List (Rat × Nat)) (quad : List (Rat × Nat × Nat)) (c : Rat),
      makeProblem scan fuel text = .ok p ∧
      p.elems = lin.map (fun e => ⟨.fin e.1, e.2⟩) ∧
      p.qelems = quad.map (fun e => ⟨.fin e.1, e.2.1, e.2.2⟩) ∧ p.value = .fin c ∧
      ∀ x : Token → Rat,
        (lin.map fun e => e.1 * x (p.names.getD e.2 [])).sum +
          (quad.map fun e => e.1 * x (p.names.getD e.2.1 []) * x (p.names.getD e.2.2 [])).sum + c =
        f.objective val x := by
  refine ⟨_, (collect (named val f.linear)).map fun e => (e.2, f.names.idxOf e.1),
    (collectPairs (f.quads.flatMap (Quad.products val))).map fun e =>
      (e.2, f.names.idxOf e.1.1, f.names.idxOf e.1.2), constant val f.linear,
    C68_read_as_written_partial scan hs val ival f ok text h fuel hf, ?_, ?_, rfl, ?_⟩
  · rw [List.map_map]; rfl
  · rw [List.map_map]; rfl
  · intro x
    rw [List.map_map, List.map_map]
    have e1 : ((collect (named val f.linear)).map ((fun e : Rat × Nat => e.1 *
        x ((f.problem val ival).names.getD e.2 [])) ∘ fun e => (e.2, f.names.idxOf e.1))).sum =
        linSum x (collect (named val f.linear)) := by
      unfold linSum
      congr 1
      apply List.map_congr_left
      intro e he
      have hm : e.1 ∈ f.names := by
        rw [collect_named] at he
        obtain ⟨n, hn, rfl⟩ := List.mem_map.mp he
        exact mem_names_obj (mem_firsts.mp hn)
      show e.2 * x (f.names.getD (f.names.idxOf e.1) []) = _
      rw [getD_idxOf hm]
    have e2 : ((collectPairs (f.quads.flatMap (Quad.products val))).map
        ((fun e : Rat × Nat × Nat => e.1 * x ((f.problem val ival).names.getD e.2.1 []) *
          x ((f.problem val ival).names.getD e.2.2 [])) ∘
          fun e => (e.2, f.names.idxOf e.1.1, f.names.idxOf e.1.2))).sum =
        quadSum x (collectPairs (f.quads.flatMap (Quad.products val))) := by
      unfold quadSum
      congr 1
      apply List.map_congr_left
      intro e he
      obtain ⟨n, hn, rfl⟩ := List.mem_map.mp he
      have hm := mem_products (mem_firstPairs hn)
      show _ * x (f.names.getD (f.names.idxOf n.1) []) *
        x (f.names.getD (f.names.idxOf n.2) []) = _
      rw [getD_idxOf hm.1, getD_idxOf hm.2]
    rw [e1, e2, linSum_collect, quadSum_collect, quadSum_products, File.objective, ← linSum_named]
    ring

/-- C96 (partial): the product of two variables, in either order, is at most once in the problem,
with the half of the sum of its factors in the text.  Missing: as in
`C96_objective_value_partial`. -/
theorem C96_products_partial (scan : Token → Option D)
    (hs : ∀ t, Reserved t → scan t = none) (val : Token → Rat) (ival : Token → Int) (f : File)
    (ok : FileOk scan val ival f) (text : List Char) (h : Denotes text f.tokens) (fuel : Nat)
    (hf : f.tokens.length < fuel) :
    ∃ p, makeProblem scan fuel text = .ok p ∧
      ∀ i j x y, p.names[i]? = some x → p.names[j]? = some y →
        (p.qelems.filter fun e => (e.a = i ∧ e.b = j) ∨ (e.a = j ∧ e.b = i)).map PQuad.factor =
          if ∃ q ∈ f.quads, ∃ t ∈ q.terms, samePair t.pair (x, y) then
            [.fin (pairSum val f.quads x y)] else [] := by
  refine ⟨_, C68_read_as_written_partial scan hs val ival f ok text h fuel hf, ?_⟩
  intro i j x y hx hy
  have hnd := FileOk.names_nodup f
  have idx : ∀ {i : Nat} {x : Token}, f.names[i]? = some x → f.names.idxOf x = i ∧ x ∈ f.names := by
    intro i x hx
    obtain ⟨hl, rfl⟩ := List.getElem?_eq_some_iff.mp hx
    exact ⟨List.Nodup.idxOf_getElem hnd i hl, List.getElem_mem hl⟩
  obtain ⟨hi, hxm⟩ := idx hx
  obtain ⟨hj, hym⟩ := idx hy
  subst hi hj
  generalize hl : f.quads.flatMap (Quad.products val) = l
  have hc : ∀ p ∈ firstPairs (l.map Prod.fst), (((f.names.idxOf p.1 = f.names.idxOf x ∧
      f.names.idxOf p.2 = f.names.idxOf y) ∨ (f.names.idxOf p.1 = f.names.idxOf y ∧
      f.names.idxOf p.2 = f.names.idxOf x)) ↔ samePair p (x, y) = true) := by
    intro p hp
    have hm := mem_products (val := val) (f := f) (by rw [hl]; exact mem_firstPairs hp)
    rw [List.idxOf_inj hm.1, List.idxOf_inj hm.2, List.idxOf_inj hm.1, List.idxOf_inj hm.2,
      samePair_iff, Prod.ext_iff, Prod.ext_iff]
  have hq : (f.problem val ival).qelems = (firstPairs (l.map Prod.fst)).map fun p =>
      (⟨.fin ((l.filter fun z => samePair z.1 p).map Prod.snd).sum, f.names.idxOf p.1,
        f.names.idxOf p.2⟩ : PQuad) := by
    rw [← hl]
    show (collectPairs _).map _ = _
    unfold collectPairs
    rw [List.map_map]; rfl
  rw [hq, List.filter_map, List.map_map]
  rw [List.filter_congr (q := fun p => samePair p (x, y)) (by
    intro p hp
    have := hc p hp
    simp only [Function.comp_apply]
    rw [Bool.eq_iff_iff, decide_eq_true_iff]
    exact this)]
  have hany : (∃ q ∈ f.quads, ∃ t ∈ q.terms, samePair t.pair (x, y) = true) ↔
      ∃ p ∈ l.map Prod.fst, samePair p (x, y) = true := by
    rw [← hl]
    constructor
    · rintro ⟨q, hq, t, ht, h⟩
      exact ⟨t.pair, List.mem_map.mpr ⟨_, List.mem_flatMap.mpr ⟨q, hq,
        List.mem_map.mpr ⟨t, ht, rfl⟩⟩, rfl⟩, h⟩
    · rintro ⟨p, hp, h⟩
      obtain ⟨e, he, rfl⟩ := List.mem_map.mp hp
      obtain ⟨q, hq, he⟩ := List.mem_flatMap.mp he
      obtain ⟨t, ht, rfl⟩ := List.mem_map.mp he
      exact ⟨q, hq, t, ht, h⟩
  have hsum : ∀ p, samePair p (x, y) = true →
      ((l.filter fun z => samePair z.1 p).map Prod.snd).sum = pairSum val f.quads x y := by
    intro p hp
    unfold pairSum
    rw [hl]
    congr 2
    apply List.filter_congr
    intro z _
    rw [Bool.eq_iff_iff]
    exact ⟨fun h => samePair_trans h hp, fun h => samePair_trans h (samePair_symm hp)⟩
  by_cases hex : ∃ q ∈ f.quads, ∃ t ∈ q.terms, samePair t.pair (x, y) = true
  · rw [if_pos hex]
    obtain ⟨p, hp, hs⟩ := hany.mp hex
    have h1 := firstPairs_any hp
    rw [List.any_eq_true] at h1
    obtain ⟨r, hr, hrs⟩ := h1
    have hrx : samePair r (x, y) = true := samePair_trans (samePair_symm hrs) hs
    have hpw := firstPairs_pairwise (l.map Prod.fst)
    have key : ∀ {L : List (Token × Token)}, L.Pairwise (fun x y => samePair x y = false) →
        r ∈ L → L.filter (fun p => samePair p (x, y)) = [r] := by
      intro L hL hr
      induction L with
      | nil => cases hr
      | cons a L ih =>
        rw [List.pairwise_cons] at hL
        rcases List.mem_cons.mp hr with rfl | hr
        · rw [List.filter_cons_of_pos (p := fun p => samePair p (x, y)) hrx]
          congr 1
          rw [List.filter_eq_nil_iff]
          intro b hb hc
          have := samePair_trans hrx (samePair_symm hc)
          rw [hL.1 b hb] at this
          cases this
        · have ha : samePair a (x, y) = false := by
            rw [← Bool.not_eq_true]
            intro hc
            have := samePair_trans hc (samePair_symm hrx)
            rw [hL.1 r hr] at this
            cases this
          rw [List.filter_cons_of_neg (p := fun p => samePair p (x, y)) (by rw [ha]; simp)]
          exact ih hL.2 hr
    rw [key hpw hr]
    simp only [List.map_cons, List.map_nil, Function.comp_apply]
    rw [hsum r hrx]
  · rw [if_neg hex]
    have : (firstPairs (l.map Prod.fst)).filter (fun p => samePair p (x, y)) = [] := by
      rw [List.filter_eq_nil_iff]
      intro p hp h
      exact hex (hany.mpr ⟨p, mem_firstPairs hp, h⟩)
    rw [this]; rfl

/-! ### Example -/

/-- A text with products and squares. -/
def exQuadText : List Char := lines [
  "Minimize", " cost: 2 x1 - x2 + 4 - [ 3 x1*x2 + x2^2 - 2 x2*x1 + 0.5 x3*x3 ]/2",
  "  3 x4 + x1 + [ x4*x3 + 2 x1^2 ] / 2 - 1", "Subject To",
  " c1: x1 + x2 + x3 <= 2", "Binary", " x1 x2 x3", "End"]

/-- Its tree. -/
def exQuadFile : File :=
  { type := .minimize
    label := some "cost".toList
    obj := [tm none "2" "x1", tm (some true) none "x2", ⟨some false, some "4".toList, none⟩]
    more := [⟨⟨some true, [⟨none, some "3".toList, "x1".toList, some "x2".toList⟩,
      ⟨some false, none, "x2".toList, none⟩,
      ⟨some true, some "2".toList, "x2".toList, some "x1".toList⟩,
      ⟨some false, some "0.5".toList, "x3".toList, some "x3".toList⟩], false⟩,
      [tm none "3" "x4", tm (some false) none "x1"]⟩,
      ⟨⟨some false, [⟨none, none, "x4".toList, some "x3".toList⟩,
        ⟨some false, some "2".toList, "x1".toList, none⟩], true⟩,
      [⟨some true, some "1".toList, none⟩]⟩]
    cons := some [⟨some "c1".toList,
      [tm none none "x1", tm (some false) none "x2", tm (some false) none "x3"], .le,
      ⟨none, "2".toList⟩⟩]
    bounds := none
    binary := some ["x1".toList, "x2".toList, "x3".toList]
    general := none }

theorem exQuadFile_ok : FileOk scanf scanVal scanInt exQuadFile := by decide +kernel

theorem exQuadFile_denotes : Denotes exQuadText exQuadFile.tokens := by
  refine ⟨by decide +kernel, ?_, .inr (by decide +kernel)⟩
  have e : exQuadFile.tokens = "minimize".toList :: ((exQuadFile.tokens.drop 1).take 49 ++
      "subject".toList :: "to".toList :: exQuadFile.tokens.drop 52) := by decide +kernel
  have e' : tokensOf exQuadText = "Minimize".toList :: ((exQuadFile.tokens.drop 1).take 49 ++
      "Subject".toList :: "To".toList :: (tokensOf exQuadText).drop 52) := by decide +kernel
  rw [e, e']
  exact .subject (x := ("subject", "to")) (by decide) (by decide +kernel) (by decide) (by decide)
    (by decide) (by decide) (by decide) (forall2_of (by decide +kernel))

/-- Non-trivial case: the text is read, the two orders of `x1` and `x2` are one product, and the
factors are halved with the sign of the brackets. -/
example : (makeProblem scanf 100 exQuadText).map PProblem.qelems =
    .ok [⟨.fin (-1 / 2), 0, 1⟩, ⟨.fin (-1 / 2), 1, 1⟩, ⟨.fin (-1 / 4), 2, 2⟩,
      ⟨.fin (1 / 2), 3, 2⟩, ⟨.fin 1, 0, 0⟩] := by
  rw [C68_read_as_written_partial scanf scanf_reserved scanVal scanInt exQuadFile exQuadFile_ok
    exQuadText exQuadFile_denotes 100 (by decide +kernel)]
  decide +kernel

example : exQuadFile.objective scanVal (fun n => if n = "x1".toList then 1 else 2) = 9 := by
  decide +kernel

/-! ### Brackets that are not read as written -/

/-- A text whose brackets hold a linear term beside a square. -/
def exLinearText : List Char := lines [
  "Minimize", " obj: x1 + [ 4 x3 + x2^2 ]/2", "Subject To",
  " c1: x1 + x2 + x3 >= 1", "Binary", " x1 x2 x3", "End"]

/-- The linear term is dropped without an error: the objective that was read is `x1 + x2^2 / 2`
(read_quadratic_element, parser.cpp:695-785, has no case for a name without `*` nor `^`). -/
theorem C96_linear_in_brackets :
    (makeProblem scanf 100 exLinearText).map (fun p => (p.names, p.elems, p.qelems, p.value)) =
      .ok (["x1".toList, "x2".toList, "x3".toList], [⟨.fin 1, 0⟩], [⟨.fin (1 / 2), 1, 1⟩],
        .fin 0) := by
  decide +kernel

/-- A text whose brackets hold a cube. -/
def exCubeText : List Char := lines [
  "Minimize", " obj: x1 + [ x2^3 x3*x3 ]/2", "Subject To",
  " c1: x1 + x2 + x3 >= 1", "Binary", " x1 x2 x3", "End"]

/-- The cube is read without an error as a square, and its exponent as the factor of the next
product: the objective that was read is `x1 + x2^2 / 2 + 3 x3 x3 / 2`. -/
theorem C96_cube :
    (makeProblem scanf 100 exCubeText).map (fun p => (p.names, p.elems, p.qelems, p.value)) =
      .ok (["x1".toList, "x2".toList, "x3".toList], [⟨.fin 1, 0⟩],
        [⟨.fin (1 / 2), 1, 1⟩, ⟨.fin (3 / 2), 2, 2⟩], .fin 0) := by
  decide +kernel

end Bx.Parser
